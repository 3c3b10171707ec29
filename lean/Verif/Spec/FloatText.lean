import Verif.Model.Text
import Verif.Spec.Float64

/-! # Decimal numbers as text -/

namespace StlDice.Spec

/-- A string of decimal digits, perhaps empty. -/
def Digits (s : Bytes) : Prop := ∀ c ∈ s, isDigit c = true

/-- An optional sign. -/
def Sign (s : Bytes) (neg : Bool) : Prop := s = [] ∧ neg = false ∨ s = ascii "+" ∧ neg = false ∨ s = ascii "-" ∧ neg = true

/-- The exponent part: nothing, or `e` or `E`, an optional sign and digits. -/
def Exponent (s : Bytes) (e : Int) : Prop :=
  s = [] ∧ e = 0 ∨
  ∃ c sg neg ds, s = c :: (sg ++ ds) ∧ (c = 101 ∨ c = 69) ∧ Sign sg neg ∧ ds ≠ [] ∧ Digits ds ∧
    e = if neg then -(digitsVal ds : Int) else digitsVal ds

/-- The decimal number `s` has the value `v`. -/
def Decimal (s : Bytes) (v : ℚ) : Prop :=
  ∃ sg neg ip fr fp ex e, s = sg ++ (ip ++ (fr ++ ex)) ∧ Sign sg neg ∧ Digits ip ∧ Digits fp ∧ ip ++ fp ≠ [] ∧
    (fr = [] ∧ fp = [] ∨ fr = ascii "." ++ fp) ∧ Exponent ex e ∧
    v = (if neg then -1 else 1) * (digitsVal (ip ++ fp) * 10 ^ (e - (fp.length : Int)))

end StlDice.Spec
