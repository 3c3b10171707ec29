import Verif.Model.Float64
import Verif.Model.Text

/-!
# Float64 as text

What Go's `fmt` prints for a float64 with `%g` or `%v` (binvox/write.go:33-42, vshell/write.go:32-42, cmd/binvox-dice/binvox-dice.go:115) and
what `strconv.ParseFloat(s, 64)` makes of a text (binvox/read.go:92-118, vshell/read.go:93-118, cmd/binvox-dice/binvox-dice.go:55-78, cmd/stldice/stldice.go:199-216).

Both are library functions; this is their documented behaviour: the shortest decimal that is read back as the same
number, the nearer one if there are two; `%e` form if the exponent is below -4 or at least 6.  Simplified: no overflow
(the numbers of `F64` are unbounded) and no `-0`; of the texts ParseFloat accepts, `inf`, `nan` and hexadecimal numbers
are not modelled.
-/

namespace StlDice.F64

/-- `10^e`. -/
def pow10 : Int → ℚ
  | .ofNat n => ((10 ^ n : Nat) : ℚ)
  | .negSucc n => mkRat 1 (10 ^ (n + 1))

/-- The integer `k` with `10^(k-1) ≤ q < 10^k`, for `q > 0`. -/
def ilog10 (q : ℚ) : Int :=
  if q < pow10 (((fmtNat q.num.natAbs).length : Int) - ((fmtNat q.den).length : Int)) then
    ((fmtNat q.num.natAbs).length : Int) - ((fmtNat q.den).length : Int)
  else ((fmtNat q.num.natAbs).length : Int) - ((fmtNat q.den).length : Int) + 1

/-- The decimal with `n` digits next to `q` that is read back as `q` (the nearer one first), as a multiple of
    `10^(k-n)`. -/
def digitsFor (q : ℚ) (k : Int) (n : Nat) : Option Nat :=
  if rnd (rne (q / pow10 (k - n)) * pow10 (k - n)) = q then some (rne (q / pow10 (k - n))).toNat
  else if rnd ((q / pow10 (k - n)).floor * pow10 (k - n)) = q then some (q / pow10 (k - n)).floor.toNat
  else if rnd (((q / pow10 (k - n)).floor + 1 : Int) * pow10 (k - n)) = q then some ((q / pow10 (k - n)).floor + 1).toNat
  else none

/-- The first number of digits from `n` on, at most `n + fuel`, that suffices, and the decimal. -/
def searchDigits (q : ℚ) (k : Int) : Nat → Nat → Nat × Nat
  | 0, n => (((digitsFor q k n).getD 0), n)
  | fuel + 1, n =>
    match digitsFor q k n with
    | some c => (c, n)
    | none => searchDigits q k fuel (n + 1)

/-- The digits of the shortest decimal for `q > 0` and the position of the point: `0.d₁d₂… · 10^dp`. -/
def shortest (q : ℚ) : Bytes × Int :=
  let k := ilog10 q
  let r := searchDigits q k 16 1
  if r.1 = 10 ^ r.2 then ([49], k + 1) else (fmtNat r.1, k)

/-- An exponent: sign and at least two digits. -/
def fmtExp (e : Int) : Bytes :=
  (if e < 0 then [45] else [43]) ++ (if e.natAbs < 10 then 48 :: fmtNat e.natAbs else fmtNat e.natAbs)

/-- The form `d.ddde±dd`. -/
def formE (ds : Bytes) (dp : Int) : Bytes :=
  ds.take 1 ++ (if ds.length ≤ 1 then [] else 46 :: ds.drop 1) ++ 101 :: fmtExp (dp - 1)

/-- The form `ddd.ddd`. -/
def formF (ds : Bytes) (dp : Int) : Bytes :=
  if dp ≤ 0 then 48 :: 46 :: (List.replicate (-dp).toNat 48 ++ ds)
  else if ds.length ≤ dp.toNat then ds ++ List.replicate (dp.toNat - ds.length) 48
  else ds.take dp.toNat ++ 46 :: ds.drop dp.toNat

/-- `%g` of a positive number: `%e` if the exponent is below -4 or at least 6. -/
def fmtPos (q : ℚ) : Bytes :=
  if (shortest q).2 - 1 < -4 ∨ 6 ≤ (shortest q).2 - 1 then formE (shortest q).1 (shortest q).2
  else formF (shortest q).1 (shortest q).2

/-- `fmt.Sprintf("%g", x)`. -/
def fmtFloat (x : F64) : Bytes :=
  if x.val = 0 then [48] else if x.val < 0 then 45 :: fmtPos (-x.val) else fmtPos x.val

/-- An optional sign. -/
def takeSign : Bytes → Bool × Bytes
  | 43 :: s => (false, s)
  | 45 :: s => (true, s)
  | s => (false, s)

/-- The exponent of a number: nothing, or `e` or `E`, an optional sign and digits. -/
def takeExp : Bytes → Option Int
  | [] => some 0
  | c :: s =>
    if c = 101 ∨ c = 69 then
      if (takeSign s).2 ≠ [] ∧ (takeSign s).2.all isDigit then
        some (if (takeSign s).1 then -(digitsVal (takeSign s).2 : Int) else (digitsVal (takeSign s).2 : Int))
      else none
    else none

/-- The digits after the point, if there is one, and the rest. -/
def takeFrac : Bytes → Bytes × Bytes
  | 46 :: s => s.span isDigit
  | s => ([], s)

/-- The value of a decimal text. -/
def decimal (s : Bytes) : Option ℚ :=
  let sg := takeSign s
  let ip := sg.2.span isDigit
  let fp := takeFrac ip.2
  if ip.1 ++ fp.1 = [] then none
  else match takeExp fp.2 with
    | none => none
    | some e => some ((if sg.1 then -1 else 1) * (digitsVal (ip.1 ++ fp.1) * pow10 (e - fp.1.length)))

/-- `strconv.ParseFloat(s, 64)`: the float64 nearest to the decimal. -/
def parse (s : Bytes) : Option F64 := (decimal s).map of

instance : FloatText F64 where
  fmtG := fmtFloat
  parseFloat := parse

end StlDice.F64
