import Verif.Spec.Mesh

/-! # What a mesh of unit cubes is (for `gl.NewVoxelMesh`, which is library code) -/

namespace StlDice
namespace Spec

/-- A model with these voxels at one voxel per millimetre, in which voxel `k` is the cube of side 1
    with its centre at `k`. -/
def unitModel (ks : List Key) : BinVOX ℚ where
  NX := 0
  NY := 0
  NZ := 0
  TX := -(1 / 2)
  TY := -(1 / 2)
  TZ := -(1 / 2)
  Scale := 0
  WhiteVoxels := some (ks.map fun k => (k, ()))
  ColorVoxels := none

/-- The points `ps` lie on the segment from `a` to `b`, in this order. -/
def Along (b : BinVOX.Vec ℚ) : BinVOX.Vec ℚ → List (BinVOX.Vec ℚ) → Prop
  | _, [] => True
  | a, p :: ps => (∃ s : ℚ, 0 ≤ s ∧ s ≤ 1 ∧
      p = ⟨a.X + s * (b.X - a.X), a.Y + s * (b.Y - a.Y), a.Z + s * (b.Z - a.Z)⟩) ∧ Along b p ps

/-- The pieces of the edge from `a` to `b` cut at these points. -/
def pieces {P : Type} (b : P) : P → List P → List (P × P)
  | a, [] => [(a, b)]
  | a, p :: ps => (a, p) :: pieces b p ps

/-- A closed surface, in which a corner may lie inside an edge of another triangle (a mesher may join unit
    faces to larger rectangles): if the edges are cut at suitable points, every piece is passed as often in
    one direction as in the other. -/
def ClosedAfterCuts (ts : List (Tri (BinVOX.Vec ℚ))) : Prop :=
  ∃ cuts : List (List (BinVOX.Vec ℚ)), cuts.length = (ts.flatMap triEdges).length ∧
    (∀ x ∈ (ts.flatMap triEdges).zip cuts, Along x.1.2 x.1.1 x.2) ∧
    ∀ u v, (((ts.flatMap triEdges).zip cuts).flatMap fun x => pieces x.1.2 x.1.1 x.2).count (u, v) =
      (((ts.flatMap triEdges).zip cuts).flatMap fun x => pieces x.1.2 x.1.1 x.2).count (v, u)

/-- `ts` is a mesh of the skin of the unit cubes around the points `ks`: closed, each triangle on
    the face between a cube and a place without one, facing out, enclosing the volume of the cubes. -/
def IsVoxelMesh (ks : List Key) (ts : List (Tri (BinVOX.Vec ℚ))) : Prop :=
  ClosedAfterCuts ts ∧ (∀ t ∈ ts, OnSkin (unitModel ks) t) ∧ volume ts = ks.dedup.length

end Spec
end StlDice
