import Verif.Lemmas.Float64

/-!
# Go's float64 in full: IEEE 754 binary64 with infinities, NaN and signed zeros

`F64` (Model/Float64) has the finite numbers only and no largest one.  This is the whole type: what the arithmetic of the Go
code means on every input (Go specification, "Arithmetic operators", "Floating-point operators", "Conversions"; IEEE 754).
All NaNs are one value here (the code never looks at their bits).  The conversion `int(x)` of a number outside of the range
of int is left to the implementation by the Go specification; modelled is amd64 (the smallest int).  Fused multiply-add is
not modelled (Go does not use it on amd64).
-/

namespace StlDice
open F64

/-- A float64: sign and magnitude, an infinity, or NaN. -/
inductive Ieee where
  | fin (neg : Bool) (mag : ℚ) (ok : 0 ≤ mag ∧ mag < 2 ^ 1024 ∧ rnd mag = mag)
  | inf (neg : Bool)
  | nan
deriving DecidableEq

namespace Ieee

/-- The number with this sign and magnitude. -/
def signed (neg : Bool) (mag : ℚ) : ℚ := if neg then -mag else mag

/-- The exact result `q` as a float64: rounded to nearest even, infinite if that is `2^1024` or more; `z` is the sign if
    `q = 0`. -/
def round (z : Bool) (q : ℚ) : Ieee :=
  if h : rnd |q| < 2 ^ 1024 then
    .fin (if q = 0 then z else decide (q < 0)) (rnd |q|) ⟨rnd_nonneg (abs_nonneg q), h, rnd_rnd _⟩
  else .inf (decide (q < 0))

/-- Negation: `-x`. -/
def neg : Ieee → Ieee
  | .fin s a h => .fin (!s) a h
  | .inf s => .inf (!s)
  | .nan => .nan

/-- Addition. -/
def add : Ieee → Ieee → Ieee
  | .nan, _ => .nan
  | _, .nan => .nan
  | .inf s, .inf t => if s = t then .inf s else .nan
  | .inf s, .fin _ _ _ => .inf s
  | .fin _ _ _, .inf t => .inf t
  | .fin s a _, .fin t b _ => round (s && t) (signed s a + signed t b)

/-- Multiplication. -/
def mul : Ieee → Ieee → Ieee
  | .nan, _ => .nan
  | _, .nan => .nan
  | .inf s, .inf t => .inf (s != t)
  | .inf s, .fin t b _ => if b = 0 then .nan else .inf (s != t)
  | .fin s a _, .inf t => if a = 0 then .nan else .inf (s != t)
  | .fin s a _, .fin t b _ => round (s != t) (signed s a * signed t b)

/-- Division. -/
def div : Ieee → Ieee → Ieee
  | .nan, _ => .nan
  | _, .nan => .nan
  | .inf _, .inf _ => .nan
  | .inf s, .fin t _ _ => .inf (s != t)
  | .fin s _ _, .inf t => round (s != t) 0
  | .fin s a _, .fin t b _ =>
    if b = 0 then (if a = 0 then .nan else .inf (s != t)) else round (s != t) (signed s a / signed t b)

/-- `x < y`; false if one of them is NaN. -/
def lt : Ieee → Ieee → Bool
  | .nan, _ => false
  | _, .nan => false
  | .inf s, .inf t => s && !t
  | .inf s, .fin _ _ _ => s
  | .fin _ _ _, .inf t => !t
  | .fin s a _, .fin t b _ => decide (signed s a < signed t b)

/-- `x == y`; false if one of them is NaN, and true for the two zeros. -/
def eq : Ieee → Ieee → Bool
  | .inf s, .inf t => s == t
  | .fin s a _, .fin t b _ => decide (signed s a = signed t b)
  | _, _ => false

/-- `math.Floor`. -/
def floor : Ieee → Ieee
  | .fin s a _ => round s ((signed s a).floor : Int)
  | x => x

/-- `math.Ceil`. -/
def ceil : Ieee → Ieee
  | .fin s a _ => round s ((signed s a).ceil : Int)
  | x => x

/-- The smallest int. -/
def minInt : Int := -2 ^ 63

/-- `int(x)` on amd64: cut off; the smallest int if `x` is NaN or out of range. -/
def toInt : Ieee → Int
  | .fin s a _ =>
    let i := if 0 ≤ signed s a then (signed s a).floor else (signed s a).ceil
    if -2 ^ 63 ≤ i ∧ i < 2 ^ 63 then i else minInt
  | _ => minInt

instance : GoFloat Ieee where
  ofInt i := round false i
  lit q := round false q
  add := add
  sub x y := add x (neg y)
  mul := mul
  div := div
  neg := neg
  lt := lt
  le x y := lt x y || eq x y
  eq := eq
  floor := floor
  ceil := ceil
  toInt := toInt

end Ieee
end StlDice
