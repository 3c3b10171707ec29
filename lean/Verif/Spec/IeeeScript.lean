import Verif.Spec.IeeeMesh
import Verif.Spec.AxisMesh
import Verif.Props.DiceScript

/-! # A job of stldice in full float64 -/

namespace StlDice.Spec
open BinVOX

/-- What is assumed of `gl.NewVoxelMesh` in full float64: the numbers it computes are finite, none above `2^60`, and, taken exactly,
    are a mesh of the skin of the unit cubes, in which corners lie inside edges only along the axes. -/
def VoxelMesherIeee (mesh : List Key → List (Tri (Vec Ieee))) (ks : List Key) : Prop :=
  ∃ ts : List (Tri (Vec F64)), SameTris ts (mesh ks) ∧ IsVoxelMesh ks (exactTris ts) ∧ ClosedAfterAxisCuts (exactTris ts) ∧
    ∀ t ∈ ts, PointWithin (2 ^ 60) t.V1 ∧ PointWithin (2 ^ 60) t.V2 ∧ PointWithin (2 ^ 60) t.V3

/-- A job in full float64 as it is meant: the files are there (`JobFiles`), box and meshes hold finite numbers (those of `B` and
    `finite`) within `S ≤ 2^100` of the origin, the resolution is moderate, box and grid lie within `R` of the origin, and the meshes
    are in general position to the grid (layout `K1`); `whole a` is the mesh of `a` voxelized without dicing. -/
structure GoodJobIeee (load : Bytes → Option (Mesh Ieee)) (bbox : Mesh Ieee → Box Ieee) (fl : Cmd.DiceFlags Ieee) (fs : FS) (base : Bytes)
    (cuts : List Bytes) (mesh : Bytes → Mesh Ieee) (B : Box F64) (finite : Bytes → Mesh F64) (K K1 : Layout Ieee) (R S : ℚ)
    (whole : Bytes → BinVOX Ieee) : Prop where
  files : JobFiles load bbox fl fs base cuts mesh K
  undiced : layout (jobBox bbox fl (mesh base)) (boxScale (jobBox bbox fl (mesh base))) fl.dim 1 1 1 = .ok K1
  box : IsBox B (jobBox bbox fl (mesh base))
  meshes : ∀ a ∈ fl.args, IsMesh (finite a) (mesh a)
  moderate : ∀ a ∈ fl.args, ModerateJob S B (boxScale B) fl.dim (finite a)
  insideX : |B.Min.X.val| + (K1.dimX : ℚ) / (fl.dim / (boxScale B).val) ≤ R
  insideY : |B.Min.Y.val| + (K1.dimY : ℚ) / (fl.dim / (boxScale B).val) ≤ R
  insideZ : |B.Min.Z.val| + (K1.dimZ : ℚ) / (fl.dim / (boxScale B).val) ≤ R
  general : ∀ a ∈ fl.args, GeneralPosition R (gridPart B (boxScale B) fl.dim ⟨K1.dimX, K1.dimY, K1.dimZ⟩ ⟨0, 0, 0⟩) (exactMesh (finite a))
  voxelized : ∀ a ∈ fl.args, VoxelizeRun (tileModel K1 (jobBox bbox fl (mesh base)) ⟨0, 0, 0⟩) (mesh a) (.ok (whole a))

end StlDice.Spec
