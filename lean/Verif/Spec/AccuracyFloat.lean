import Verif.Spec.Accuracy

/-! # Voxels against the surface in space, in float64

As in `Spec/Accuracy`, with an allowance for rounding. -/

namespace StlDice.Spec
open BinVOX

/-- `v` is at most `e` above or below the middle of voxel `(x, y, z)`, and in each of the two other directions at most `r`
    voxel sides and `e` from the middle. -/
def AroundUpTo (b : BinVOX ℚ) (r e : ℚ) (x y z : Int) (v : Vec ℚ) : Prop :=
  |v.Z - (centre b ⟨x, y, z⟩).Z| ≤ e ∧ |v.X - (centre b ⟨x, y, z⟩).X| ≤ r / b.VoxelsPerMM + e ∧
    |v.Y - (centre b ⟨x, y, z⟩).Y| ≤ r / b.VoxelsPerMM + e

/-- An edge between corners at heights `p` and `q` is cut clearly at height `z`: both are more than `d` from `z`, and if
    one is above and the other below, they differ by at least the limit (and its rounding error). -/
def ClearEdge (d p q z : ℚ) : Prop :=
  d < |z - p| ∧ d < |z - q| ∧ (p < z → z < q → flatLimit * (1 + 1 / 2 ^ 50) ≤ q - p) ∧
    (q < z → z < p → flatLimit * (1 + 1 / 2 ^ 50) ≤ p - q)

/-- No corner of the mesh is within `d` of height `z`, and an edge crossing this height rises by more than `10^-9`. -/
def ClearSlice (d : ℚ) (m : Mesh ℚ) (z : ℚ) : Prop :=
  ∀ p ∈ m.Triangles, ClearEdge d (m.heap p).V1.Position.Z (m.heap p).V2.Position.Z z ∧
    ClearEdge d (m.heap p).V2.Position.Z (m.heap p).V3.Position.Z z ∧
    ClearEdge d (m.heap p).V3.Position.Z (m.heap p).V1.Position.Z z

end StlDice.Spec
