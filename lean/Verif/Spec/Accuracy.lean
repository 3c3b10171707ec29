import Verif.Spec.Voxelize
import Verif.Spec.Mesh
import Verif.Spec.VoxelizeFloat

/-! # Voxels against the surface in space

Points of the mesh as points in space, and the distance of a point from the middle of a voxel.  Nothing here uses the
program's lines, cells or counts. -/

namespace StlDice.Spec
open BinVOX

/-- `v` is a point of the (filled) triangle: a weighted mean of its corners. -/
def InTriangle (t : Triangle ℚ) (v : Vec ℚ) : Prop :=
  ∃ i j k : ℚ, 0 ≤ i ∧ 0 ≤ j ∧ 0 ≤ k ∧ i + j + k = 1 ∧
    v.X = i * t.V1.Position.X + j * t.V2.Position.X + k * t.V3.Position.X ∧
    v.Y = i * t.V1.Position.Y + j * t.V2.Position.Y + k * t.V3.Position.Y ∧
    v.Z = i * t.V1.Position.Z + j * t.V2.Position.Z + k * t.V3.Position.Z

/-- `v` is a point of the surface of the mesh. -/
def OnSurface (m : Mesh ℚ) (v : Vec ℚ) : Prop := ∃ p ∈ m.Triangles, InTriangle (m.heap p) v

/-- `v` lies in the horizontal plane through the middle of voxel `(x, y, z)`, and in each of the two other directions at
    most `r` voxel sides from the middle. -/
def Around (b : BinVOX ℚ) (r : ℚ) (x y z : Int) (v : Vec ℚ) : Prop :=
  v.Z = (centre b ⟨x, y, z⟩).Z ∧ |v.X - (centre b ⟨x, y, z⟩).X| ≤ r / b.VoxelsPerMM ∧
    |v.Y - (centre b ⟨x, y, z⟩).Y| ≤ r / b.VoxelsPerMM

/-- No corner of the triangle lies at height `z`, and an edge crossing this height rises by at least `10^-9`. -/
def CleanCut (t : Triangle ℚ) (z : ℚ) : Prop :=
  let clean (a c : Vec ℚ) := a.Z < z → z < c.Z → flatLimit ≤ c.Z - a.Z
  t.V1.Position.Z ≠ z ∧ t.V2.Position.Z ≠ z ∧ t.V3.Position.Z ≠ z ∧
    clean t.V1.Position t.V2.Position ∧ clean t.V2.Position t.V1.Position ∧
    clean t.V2.Position t.V3.Position ∧ clean t.V3.Position t.V2.Position ∧
    clean t.V3.Position t.V1.Position ∧ clean t.V1.Position t.V3.Position

end StlDice.Spec
