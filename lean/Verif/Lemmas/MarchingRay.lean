import Verif.Props.Marching
import Verif.Spec.Winding
import Mathlib.Tactic.Ring
import Mathlib.Tactic.LinearCombination
import Mathlib.Tactic.Linarith
import Mathlib.Tactic.Positivity
import Mathlib.Tactic.FieldSimp

/-! # Rays through the cells of marching cubes -/

namespace StlDice
namespace Marching
open BinVOX Spec

/-! ## The table along the four edges in the direction of x -/

/-- Six times the orientation of the corners `A`, `C` seen from the point `(m/6, n/6)` of the yz plane. -/
def oriI (m n : Int) (A C : Key) : Int := 6 * (A.Y * C.Z - A.Z * C.Y) - m * (C.Z - A.Z) + n * (C.Y - A.Y)

/-- The sign of a linear function inside of a triangle, from its values at the corners; 0 if it changes. -/
def sgn3 (x y z : Int) : Int :=
  if 0 ≤ x ∧ 0 ≤ y ∧ 0 ≤ z ∧ 0 < x + y + z then 1
  else if x ≤ 0 ∧ y ≤ 0 ∧ z ≤ 0 ∧ x + y + z < 0 then -1 else 0

/-- A part of the surroundings of an edge in the direction of x, from corner `lo` to corner `hi`: inwards are the directions
    `sy`, `sz`; the part lies between the slopes `(a, 6 - a)` and `(a', 6 - a')`. -/
structure Cone where
  lo : Nat
  hi : Nat
  sy : Int
  sz : Int
  a : Int
  a' : Int

def Cone.m0 (c : Cone) : Int := 12 * (cornerOff c.lo).Y
def Cone.n0 (c : Cone) : Int := 12 * (cornerOff c.lo).Z

/-- The sign of the orientation of `A`, `C` seen from inside of the cone. -/
def Cone.sgn (c : Cone) (A C : Key) : Int :=
  sgn3 (oriI c.m0 c.n0 A C) (oriI (c.m0 + c.sy * c.a) (c.n0 + c.sz * (6 - c.a)) A C)
    (oriI (c.m0 + c.sy * c.a') (c.n0 + c.sz * (6 - c.a')) A C)

/-- The signs of the three sides of a triangle. -/
def Cone.signs (c : Cone) (t : Tri Nat) : Int × Int × Int :=
  (c.sgn (mid t.V1) (mid t.V2), c.sgn (mid t.V2) (mid t.V3), c.sgn (mid t.V3) (mid t.V1))

def isPos (s : Int × Int × Int) : Bool := s.1 = 1 && s.2.1 = 1 && s.2.2 = 1
def isNeg (s : Int × Int × Int) : Bool := s.1 = -1 && s.2.1 = -1 && s.2.2 = -1
def isMixed (s : Int × Int × Int) : Bool :=
  (s.1 = 1 || s.2.1 = 1 || s.2.2 = 1) && (s.1 = -1 || s.2.1 = -1 || s.2.2 = -1)

def cones : List Cone :=
  [(3, 2, 1, 1), (0, 1, -1, 1), (7, 6, 1, -1), (4, 5, -1, -1)].flatMap fun q =>
    [(6, 4), (4, 3), (3, 2), (2, 0)].map fun a => ⟨q.1, q.2.1, q.2.2.1, q.2.2.2, a.1, a.2⟩

def coneOK (c : Cone) (ci : Nat) : Bool :=
  ((symTris ci).all fun t => isPos (c.signs t) || isNeg (c.signs t) || isMixed (c.signs t)) &&
    ((((symTris ci).countP fun t => isPos (c.signs t) : Nat) : Int) - ((symTris ci).countP fun t => isNeg (c.signs t) : Nat) =
      (if ci.testBit c.lo then 0 else 1) - (if ci.testBit c.hi then 0 else 1) : Bool)

/-- The table of marching cubes seen along an edge: the triangles of a cell leave and enter as its corners tell. -/
theorem cones_ok : ∀ c ∈ cones, ∀ ci ∈ List.range 256, coneOK c ci = true := by decide +kernel

end Marching
end StlDice
