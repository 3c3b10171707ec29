import Verif.Model.Basic

/-! # Bytes, text lines, number formatting and the regular expressions of the file headers -/

namespace StlDice

abbrev Bytes := List UInt8

/-- ASCII bytes of a string literal of the source. -/
def ascii (s : String) : Bytes := s.toList.map (fun c => UInt8.ofNat c.toNat)

/-- `'\n'`. -/
def nl : UInt8 := 10

/-- What an `io.Reader` delivers: some bytes, then either a clean `io.EOF` (`clean = true`)
    or another I/O error. -/
structure Input where
  bytes : Bytes
  clean : Bool

/-- `bufio.Reader.ReadString('\n')`: the line including the newline and the remaining input;
    `none` if the input ends (EOF or error) before a newline — the callers treat both alike. -/
def readLine : Bytes → Option (Bytes × Bytes)
  | [] => none
  | c :: cs =>
    if c = nl then some ([c], cs)
    else match readLine cs with
      | none => none
      | some (l, r) => some (c :: l, r)

/-- RE2 `\s`: `[\t\n\f\r ]`. -/
def isSpace (b : UInt8) : Bool := b = 9 || b = 10 || b = 12 || b = 13 || b = 32

/-- RE2 `\d`. -/
def isDigit (b : UInt8) : Bool := 48 ≤ b.toNat && b.toNat ≤ 57

/-- Match a literal prefix. -/
def stripPrefix : Bytes → Bytes → Option Bytes
  | [], s => some s
  | _ :: _, [] => none
  | p :: ps, c :: cs => if p = c then stripPrefix ps cs else none

/-- One capture group `(x+)` for a byte class `p`, greedy; the classes used here are disjoint
    from what follows, so greedy matching is the only way to match. -/
def capture (p : UInt8 → Bool) (s : Bytes) : Option (Bytes × Bytes) :=
  match s.span p with
  | ([], _) => none
  | (c :: cs, r) => some (c :: cs, r)

/-- `dimRE = ^dim (\d+) (\d+) (\d+)\s*$`, binvox/read.go:14, vshell/read.go:15. -/
def matchDim (line : Bytes) : Option (Bytes × Bytes × Bytes) := do
  let r ← stripPrefix (ascii "dim ") line
  let (a, r) ← capture isDigit r
  let r ← stripPrefix (ascii " ") r
  let (b, r) ← capture isDigit r
  let r ← stripPrefix (ascii " ") r
  let (c, r) ← capture isDigit r
  if r.all isSpace then some (a, b, c) else none

/-- `translateRE = ^translate (\S+) (\S+) (\S+)\s*$`, binvox/read.go:15, vshell/read.go:16. -/
def matchTranslate (line : Bytes) : Option (Bytes × Bytes × Bytes) := do
  let r ← stripPrefix (ascii "translate ") line
  let (a, r) ← capture (fun c => !isSpace c) r
  let r ← stripPrefix (ascii " ") r
  let (b, r) ← capture (fun c => !isSpace c) r
  let r ← stripPrefix (ascii " ") r
  let (c, r) ← capture (fun c => !isSpace c) r
  if r.all isSpace then some (a, b, c) else none

/-- `scaleRE = ^scale (\S+)\s*$`, binvox/read.go:16, vshell/read.go:17. -/
def matchScale (line : Bytes) : Option Bytes := do
  let r ← stripPrefix (ascii "scale ") line
  let (a, r) ← capture (fun c => !isSpace c) r
  if r.all isSpace then some a else none

/-- Value of a string of decimal digits. -/
def digitsVal (ds : Bytes) : Nat := ds.foldl (fun n d => n * 10 + (d.toNat - 48)) 0

/-- `math.MaxInt64`. -/
def maxInt : Nat := 9223372036854775807

/-- `strconv.Atoi` on a string of decimal digits (all the code ever passes): fails on overflow. -/
def atoi (ds : Bytes) : Option Int :=
  if digitsVal ds ≤ maxInt then some (digitsVal ds : Int) else none

/-- Decimal digits of a natural number, least significant first, with fuel. -/
def natDigitsRev : Nat → Nat → Bytes
  | 0, _ => []
  | fuel + 1, n =>
    if n < 10 then [UInt8.ofNat (48 + n)]
    else UInt8.ofNat (48 + n % 10) :: natDigitsRev fuel (n / 10)

/-- Decimal text of a natural number. -/
def fmtNat (n : Nat) : Bytes := (natDigitsRev (n + 1) n).reverse

/-- `fmt.Sprintf("%v", i)` for an int. -/
def fmtInt (i : Int) : Bytes :=
  match i with
  | Int.ofNat n => fmtNat n
  | Int.negSucc n => 45 :: fmtNat (n + 1)

/-- Text form of floats: `%g` formatting and `strconv.ParseFloat`. -/
class FloatText (F : Type) where
  fmtG : F → Bytes
  parseFloat : Bytes → Option F

/-- What the code relies on: `%g` prints a non-empty word without blanks that `ParseFloat` maps back
    to the same value (true of Go: `%g` with the shortest exact representation). -/
class LawfulFloatText (F : Type) [FloatText F] : Prop where
  parse_fmt : ∀ x : F, FloatText.parseFloat (FloatText.fmtG x) = some x
  fmt_ne_nil : ∀ x : F, FloatText.fmtG x ≠ []
  fmt_nospace : ∀ x : F, ∀ c ∈ FloatText.fmtG x, isSpace c = false

/-- Result of one call of `io.Writer.Write`: all bytes taken, or an error after `k` bytes. -/
inductive WOut where
  | full
  | fail (k : Nat)
deriving DecidableEq, Repr

/-- An `io.Writer`: the bytes that reached it and the outcomes of its future `Write` calls
    (all later calls succeed once the plan is used up). -/
structure Sink where
  out : Bytes
  plan : List WOut

/-- One `w.Write(bs)`; the flag tells whether it returned a nil error. -/
def Sink.write (w : Sink) (bs : Bytes) : Sink × Bool :=
  match w.plan with
  | [] => ({ out := w.out ++ bs, plan := [] }, true)
  | .full :: p => ({ out := w.out ++ bs, plan := p }, true)
  | .fail k :: p => ({ out := w.out ++ bs.take k, plan := p }, false)

end StlDice
