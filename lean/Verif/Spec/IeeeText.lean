import Verif.Model.Ieee
import Verif.Spec.IntText
import Verif.Spec.FloatText

/-! # The texts of float64 numbers: the floating-point literals of Go, infinities and NaN -/

namespace StlDice.Spec

/-- How many digits there are. -/
def digitCount (s : Bytes) : Nat := (s.filter (· ≠ 95)).length

/-- Digits (with underscores between them) with an optional point, and their value. -/
inductive Mantissa (base : Nat) : Bytes → ℚ → Prop
  | whole {s n} (h : DigitText base s n) : Mantissa base s n
  | point {s n} (h : DigitText base s n) : Mantissa base (s ++ ascii ".") n
  | frac {s n} (h : DigitText base s n) : Mantissa base (ascii "." ++ s) (n / base ^ digitCount s)
  | both {s t m n} (hs : DigitText base s m) (ht : DigitText base t n) :
      Mantissa base (s ++ ascii "." ++ t) (m + n / base ^ digitCount t)

/-- An exponent after one of these two letters: an optional sign and decimal digits. -/
def ExpPart (l u : String) (s : Bytes) (e : Int) : Prop :=
  ∃ sg neg ds n, (s = ascii l ++ sg ++ ds ∨ s = ascii u ++ sg ++ ds) ∧ Sign sg neg ∧ DigitText 10 ds n ∧
    e = if neg then -(n : Int) else n

/-- A number without sign and its value. -/
inductive Magnitude : Bytes → ℚ → Prop
  | dec {s v} (h : Mantissa 10 s v) : Magnitude s v
  | decExp {s v t e} (h : Mantissa 10 s v) (he : ExpPart "e" "E" t e) : Magnitude (s ++ t) (v * 10 ^ e)
  | hex {p s v t e} (hp : p = ascii "0x" ∨ p = ascii "0X") (h : Mantissa 16 s v) (he : ExpPart "p" "P" t e) :
      Magnitude (p ++ s ++ t) (v * 2 ^ e)
  | hexUnder {p s v t e} (hp : p = ascii "0x" ∨ p = ascii "0X") (h : Mantissa 16 s v) (h0 : s.head? ≠ some 46)
      (he : ExpPart "p" "P" t e) : Magnitude (p ++ ascii "_" ++ s ++ t) (v * 2 ^ e)

/-- These letters, in upper or lower case. -/
def AnyCase (s : Bytes) (w : String) : Prop :=
  s.length = (ascii w).length ∧ ∀ (i : Nat) (c d : UInt8), s[i]? = some c → (ascii w)[i]? = some d → c = d ∨ c + 32 = d

/-- The text of an infinity or of NaN. -/
inductive SpecialText : Bytes → Ieee → Prop
  | inf {sg neg w} (hs : Sign sg neg) (h : AnyCase w "inf" ∨ AnyCase w "infinity") : SpecialText (sg ++ w) (.inf neg)
  | nan {w} (h : AnyCase w "nan") : SpecialText w .nan

/-- The float64 a text stands for: the one nearest to its value, if that is finite. -/
inductive FloatOf : Bytes → Ieee → Prop
  | special {s x} (h : SpecialText s x) : FloatOf s x
  | number {sg neg s v} (hs : Sign sg neg) (h : Magnitude s v) (ok) : FloatOf (sg ++ s) (.fin neg (F64.rnd v) ok)

end StlDice.Spec
