import Verif.Lemmas.ManifoldSolid
import Verif.Lemmas.MarchingRay

/-! # Rays through the cells of ManifoldMesh -/

namespace StlDice
namespace Manifold
open Spec
open Marching (corner cornerOff kSub kCross kDot isPos isNeg isMixed)

/-- The lines through the inside of a quarter that edges of triangles can lie on, in a quarter of the cell with the centre of the cell as origin:
    `(a, b, c)` stands for `a + b u + c v`. -/
def lines : List (Int × Int × Int) :=
  [(0, 1, -1), (1, -1, -1), (1, -2, -1), (1, -2, 1), (1, -1, -2), (1, 1, -2)]

def fdot (f g : Int × Int × Int) : Int := f.1 * g.1 + f.2.1 * g.2.1 + f.2.2 * g.2.2
def parallel (f g : Int × Int × Int) : Bool :=
  f.1 * g.2.1 = f.2.1 * g.1 && f.1 * g.2.2 = f.2.2 * g.1 && f.2.1 * g.2.2 = f.2.2 * g.2.1

/-- The sign of `f`, from the signs of the lines; 0 if it is no multiple of one of the lines. -/
def lineSign (f : Int × Int × Int) : List (Int × Int × Int) → List Int → Int
  | g :: gs, s :: ss => if parallel f g then (if 0 < fdot f g then s else if fdot f g < 0 then -s else 0) else lineSign f gs ss
  | _, _ => 0

/-- The sign of `f` in a part of the quarter: from its values at the corners, or from the lines. -/
def fsign (f : Int × Int × Int) (ss : List Int) : Int :=
  if 0 ≤ f.1 ∧ 0 ≤ f.1 + f.2.1 ∧ 0 ≤ f.1 + f.2.2 ∧ 0 ≤ f.1 + f.2.1 + f.2.2 ∧ f ≠ (0, 0, 0) then 1
  else if f.1 ≤ 0 ∧ f.1 + f.2.1 ≤ 0 ∧ f.1 + f.2.2 ≤ 0 ∧ f.1 + f.2.1 + f.2.2 ≤ 0 ∧ f ≠ (0, 0, 0) then -1
  else lineSign f lines ss

/-- A quarter of the cell, seen along x: between corners `lo` and `hi`, on the sides `sy`, `sz` of the centre. -/
structure Quarter where
  lo : Nat
  hi : Nat
  sy : Int
  sz : Int

def quarters : List Quarter := [⟨0, 1, 1, -1⟩, ⟨3, 2, -1, -1⟩, ⟨4, 5, 1, 1⟩, ⟨7, 6, -1, 1⟩]

/-- The orientation of `A`, `C` seen from the point `(sy u, sz v)`. -/
def oriF (q : Quarter) (A C : Key) : Int × Int × Int :=
  (A.Y * C.Z - A.Z * C.Y, -q.sy * (C.Z - A.Z), q.sz * (C.Y - A.Y))

def Quarter.signs (q : Quarter) (ss : List Int) (t : Tri Key) : Int × Int × Int :=
  (fsign (oriF q t.V1 t.V2) ss, fsign (oriF q t.V2 t.V3) ss, fsign (oriF q t.V3 t.V1) ss)

/-- The parts the lines cut the quarter into, as the sides of the lines they lie on. -/
def regions : List (List Int) := [
  [-1, -1, -1, 1, -1, -1], [-1, -1, -1, 1, -1, 1], [-1, 1, -1, 1, -1, -1],
  [-1, 1, -1, 1, -1, 1], [-1, 1, 1, 1, -1, -1], [-1, 1, 1, 1, -1, 1],
  [-1, 1, 1, 1, 1, 1], [1, -1, -1, -1, -1, 1], [1, -1, -1, 1, -1, 1],
  [1, 1, -1, -1, -1, 1], [1, 1, -1, -1, 1, 1], [1, 1, -1, 1, -1, 1],
  [1, 1, -1, 1, 1, 1], [1, 1, 1, 1, 1, 1]]

def quarterOK (q : Quarter) (ss : List Int) (n : Nat) : Bool :=
  ((gridTris n).all fun t =>
    if t.V1.X = 0 ∧ t.V2.X = 0 ∧ t.V3.X = 0 then isPos (q.signs ss t) || isNeg (q.signs ss t) || isMixed (q.signs ss t)
    else (t.V1.Y = 0 ∧ t.V2.Y = 0 ∧ t.V3.Y = 0) ∨ (t.V1.Z = 0 ∧ t.V2.Z = 0 ∧ t.V3.Z = 0)) &&
  (((((gridTris n).filter fun t => t.V1.X = 0 ∧ t.V2.X = 0 ∧ t.V3.X = 0).countP fun t => isPos (q.signs ss t) : Nat) : Int) -
    (((gridTris n).filter fun t => t.V1.X = 0 ∧ t.V2.X = 0 ∧ t.V3.X = 0).countP fun t => isNeg (q.signs ss t) : Nat) =
      bi n q.lo - bi n q.hi : Bool)

theorem quarters_ok : ∀ n ∈ List.range 256, wcBlock n = true → n ∉ twistedChains → ∀ q ∈ quarters, ∀ ss ∈ regions,
    quarterOK q ss n = true := by decide +kernel

end Manifold
end StlDice
