import Verif.Model.Ieee
import Verif.Model.Flag
import Verif.Model.FloatText

/-!
# All float64 numbers as text

`fmt`'s `%g` and `%v` and `strconv.ParseFloat(s, 64)` for all of float64 (see Model/FloatText for the places in the code that
use them): infinities, NaN, both zeros, overflow, hexadecimal numbers, underscores.  The structure is that of the library
(strconv/atof.go: `special`, `readFloat`, `underscoreOK`); the value is rounded exactly, as documented.
-/

namespace StlDice.Ieee
open F64 Flag

/-- `fmt.Sprintf("%g", x)`. -/
def fmtFloat : Ieee → Bytes
  | .nan => ascii "NaN"
  | .inf s => if s then ascii "-Inf" else ascii "+Inf"
  | .fin s a _ => (if s then [45] else []) ++ (if a = 0 then [48] else fmtPos a)

/-- A letter in lower case, as in `strconv.commonPrefixLenIgnoreCase`. -/
def toLower (c : UInt8) : UInt8 := if 65 ≤ c ∧ c ≤ 90 then c + 32 else c

/-- `strconv.commonPrefixLenIgnoreCase`. -/
def prefixLen : Bytes → Bytes → Nat
  | c :: s, p :: ps => if toLower c = p then prefixLen s ps + 1 else 0
  | _, _ => 0

/-- Of `infinity` either all or `inf` is read. -/
def infLen (n : Nat) : Nat := if 3 < n ∧ n < 8 then 3 else n

/-- The case of infinities in `strconv.special`, and what follows. -/
def infinity (neg : Bool) (s : Bytes) : Option (Ieee × Bytes) :=
  if infLen (prefixLen s (ascii "infinity")) = 3 ∨ infLen (prefixLen s (ascii "infinity")) = 8 then
    some (.inf neg, s.drop (infLen (prefixLen s (ascii "infinity"))))
  else none

/-- `strconv.special`: infinities and NaN, and what follows. -/
def special : Bytes → Option (Ieee × Bytes)
  | [] => none
  | c :: s =>
    if c = 43 ∨ c = 45 then infinity (c == 45) s
    else if c = 105 ∨ c = 73 then infinity false (c :: s)
    else if c = 110 ∨ c = 78 then
      if prefixLen (c :: s) (ascii "nan") = 3 then some (.nan, s.drop 2) else none
    else none

/-- A digit or an underscore in the loop of `strconv.readFloat`. -/
def isMant (hex : Bool) (c : UInt8) : Bool :=
  c == 95 || isDigit c || (hex && (decide (97 ≤ c ∧ c ≤ 102) || decide (65 ≤ c ∧ c ≤ 70)))

/-- The loop of `strconv.readFloat`: what is before and after the point, and the rest. -/
def readMant (hex : Bool) (s : Bytes) : Bytes × Bytes × Bytes :=
  match (s.span (isMant hex)).2 with
  | 46 :: r => ((s.span (isMant hex)).1, (r.span (isMant hex)).1, (r.span (isMant hex)).2)
  | r => ((s.span (isMant hex)).1, [], r)

/-- The digits without the underscores. -/
def plain (s : Bytes) : Bytes := s.filter (· ≠ 95)

/-- The value of an exponent in `strconv.readFloat`, which stops counting at 10000. -/
def capped (e : Nat) (s : Bytes) : Nat :=
  s.foldl (fun e c => if c = 95 then e else if e < 10000 then e * 10 + (c.toNat - 48) else e) e

/-- The exponent in `strconv.readFloat` and the rest; it may only be missing in decimal numbers. -/
def readExp (hex : Bool) (s : Bytes) : Option (Int × Bytes) :=
  match s with
  | [] => if hex then none else some (0, [])
  | c :: r =>
    if c ||| 32 = (if hex then 112 else 101) then
      match (takeSign r).2 with
      | [] => none
      | d :: t =>
        if isDigit d then
          some (if (takeSign r).1 then -(capped 0 ((d :: t).span (isMant false)).1 : Int) else capped 0 ((d :: t).span (isMant false)).1,
            ((d :: t).span (isMant false)).2)
        else none
    else if hex then none else some (0, c :: r)

/-- The prefix of a hexadecimal number, with something after it. -/
def takeHex : Bytes → Bool × Bytes
  | 48 :: x :: c :: s => if x ||| 32 = 120 then (true, c :: s) else (false, 48 :: x :: c :: s)
  | s => (false, s)

/-- `b^e`. -/
def powB (b : Nat) : Int → ℚ
  | .ofNat n => ((b ^ n : Nat) : ℚ)
  | .negSucc n => mkRat 1 (b ^ (n + 1))

/-- `strconv.readFloat`: sign, magnitude and the rest of the text. -/
def readFloat (s : Bytes) : Option (Bool × ℚ × Bytes) :=
  let sg := takeSign s
  let hx := takeHex sg.2
  let m := readMant hx.1 hx.2
  if plain (m.1 ++ m.2.1) = [] then none
  else match readExp hx.1 m.2.2, digitsIn (if hx.1 then 16 else 10) 0 (m.1 ++ m.2.1) with
    | some (e, r), some n =>
      if (95 : UInt8) ∈ s.take (s.length - r.length) ∧ underscoreOK (s.take (s.length - r.length)) = false then none
      else some (sg.1, n * (if hx.1 then powB 2 (e - 4 * (plain m.2.1).length) else powB 10 (e - (plain m.2.1).length)), r)
    | _, _ => none

/-- `strconv.ParseFloat(s, 64)`; `none` is an error (also for overflow). -/
def parse (s : Bytes) : Option Ieee :=
  match special s with
  | some (x, r) => if r = [] then some x else none
  | none =>
    match readFloat s with
    | none => none
    | some (neg, v, r) =>
      if r ≠ [] then none
      else if h : rnd |v| < 2 ^ 1024 then some (.fin neg (rnd |v|) ⟨rnd_nonneg (abs_nonneg v), h, rnd_rnd _⟩)
      else none

instance : FloatText Ieee where
  fmtG := fmtFloat
  parseFloat := parse

end StlDice.Ieee
