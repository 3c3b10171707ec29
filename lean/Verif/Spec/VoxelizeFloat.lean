import Verif.Model.Float64
import Verif.Model.Dice
import Verif.Spec.Float64

/-! # Voxelizing in float64: meshes in general position to the grid -/

namespace StlDice.Spec
open BinVOX

/-- The point with its numbers as exact numbers. -/
def exactVec (p : Vec F64) : Vec ℚ := ⟨p.X.val, p.Y.val, p.Z.val⟩

/-- The mesh with its numbers as exact numbers. -/
def exactMesh (m : Mesh F64) : Mesh ℚ where
  heap i := ⟨⟨exactVec (m.heap i).V1.Position, exactVec (m.heap i).V1.Normal⟩,
    ⟨exactVec (m.heap i).V2.Position, exactVec (m.heap i).V2.Normal⟩,
    ⟨exactVec (m.heap i).V3.Position, exactVec (m.heap i).V3.Normal⟩⟩
  Triangles := m.Triangles

/-- The float64 region `b'` is the region `b` up to rounding, where `R` bounds the coordinates. -/
structure NearModel (R : ℚ) (b : BinVOX ℚ) (b' : BinVOX F64) : Prop where
  nx : b'.NX = b.NX
  ny : b'.NY = b.NY
  nz : b'.NZ = b.NZ
  pitch : |b'.VoxelsPerMM.val - b.VoxelsPerMM| ≤ b.VoxelsPerMM / 2 ^ 50
  tx : |b'.TX.val - b.TX| ≤ R / 2 ^ 48
  ty : |b'.TY.val - b.TY| ≤ R / 2 ^ 48
  tz : |b'.TZ.val - b.TZ| ≤ R / 2 ^ 48

/-- The height of the middle of slice `zi`. -/
def sliceMiddle (b : BinVOX ℚ) (zi : Int) : ℚ := b.TZ + ((zi : ℚ) + 1 / 2) / b.VoxelsPerMM

/-- Where the edge from `(x0, z0)` to `(x1, z1)` has height `z`. -/
def edgeAt (x0 z0 x1 z1 z : ℚ) : ℚ := x0 + (x1 - x0) * ((z - z0) / (z1 - z0))

/-- `g` (a position in voxels) has a distance of more than `d` from every border between two voxels. -/
def OffBorder (d g : ℚ) : Prop := ∀ n : Int, d < |g - n|

/-- The limit below which the height of an edge counts as zero. -/
def flatLimit : ℚ := 1 / 1000000000

/-- A number that float64 and exact arithmetic compare with the limit alike. -/
def OffLimit (x : ℚ) : Prop := |x| ≤ flatLimit * (1 - 1 / 2 ^ 50) ∨ flatLimit * (1 + 1 / 2 ^ 50) ≤ |x|

/-- The edge from `p` to `q` is in general position: its height is not at the limit; and, unless it is below, no slice
    comes within `2^-44 R` of its ends, and where a slice cuts it the point has a distance of `2^-43 R` from the borders
    between voxels, more if the edge is nearly horizontal. -/
def GeneralEdge (R : ℚ) (b : BinVOX ℚ) (p q : Vec ℚ) : Prop :=
  OffLimit (q.Z - p.Z) ∧
  (flatLimit ≤ |q.Z - p.Z| → ∀ zi : Int, 0 ≤ zi → zi < b.NZ →
    2 * (R / 2 ^ 45) < |sliceMiddle b zi - p.Z| ∧ 2 * (R / 2 ^ 45) < |sliceMiddle b zi - q.Z| ∧
    ((p.Z < sliceMiddle b zi ↔ sliceMiddle b zi < q.Z) →
    OffBorder (b.VoxelsPerMM * (4 * (1 + |(q.X - p.X) / (q.Z - p.Z)|) * (R / 2 ^ 45)))
      (b.VoxelsPerMM * (edgeAt p.X p.Z q.X q.Z (sliceMiddle b zi) - b.TX)) ∧
    OffBorder (b.VoxelsPerMM * (4 * (1 + |(q.Y - p.Y) / (q.Z - p.Z)|) * (R / 2 ^ 45)))
      (b.VoxelsPerMM * (edgeAt p.Y p.Z q.Y q.Z (sliceMiddle b zi) - b.TY))))

/-- All coordinates of the point are at most `R`. -/
def Within (R : ℚ) (p : Vec ℚ) : Prop := |p.X| ≤ R ∧ |p.Y| ≤ R ∧ |p.Z| ≤ R

/-- Mesh and region lie within `R` of the origin, and the resolution is far from the ends of the range of float64. -/
structure InReach (R : ℚ) (b : BinVOX ℚ) (m : Mesh ℚ) : Prop where
  lo : (2 : ℚ) ^ (-899 : Int) ≤ b.VoxelsPerMM
  hi : b.VoxelsPerMM ≤ 2 ^ (899 : Int)
  nz : b.NZ ≤ 2 ^ 50
  corner : |b.TX| ≤ R ∧ |b.TY| ≤ R ∧ |b.TZ| ≤ R
  top : (b.NZ : ℚ) / b.VoxelsPerMM ≤ R
  points : ∀ p ∈ m.Triangles, Within R (m.heap p).V1.Position ∧ Within R (m.heap p).V2.Position ∧
    Within R (m.heap p).V3.Position

/-- The mesh is in general position to the grid of the region, and mesh and region lie within `R` of the origin. -/
structure GeneralPosition (R : ℚ) (b : BinVOX ℚ) (m : Mesh ℚ) : Prop where
  lo : (2 : ℚ) ^ (-899 : Int) ≤ b.VoxelsPerMM
  hi : b.VoxelsPerMM ≤ 2 ^ (899 : Int)
  nz : b.NZ ≤ 2 ^ 50
  corner : |b.TX| ≤ R ∧ |b.TY| ≤ R ∧ |b.TZ| ≤ R
  top : (b.NZ : ℚ) / b.VoxelsPerMM ≤ R
  points : ∀ p ∈ m.Triangles, Within R (m.heap p).V1.Position ∧ Within R (m.heap p).V2.Position ∧
    Within R (m.heap p).V3.Position
  edges : ∀ p ∈ m.Triangles, GeneralEdge R b (m.heap p).V1.Position (m.heap p).V2.Position ∧
    GeneralEdge R b (m.heap p).V2.Position (m.heap p).V3.Position ∧
    GeneralEdge R b (m.heap p).V3.Position (m.heap p).V1.Position
  normals : ∀ p ∈ m.Triangles, OffLimit (m.heap p).V1.Normal.X

/-- The part of `n` voxels from voxel `o` on, of the grid of a job: `dim/scale` voxels per millimetre from the corner of
    the box on, in exact arithmetic. -/
def gridPart (mbb : Box F64) (scale : F64) (dim : Int) (n o : Key) : BinVOX ℚ where
  NX := n.X
  NY := n.Y
  NZ := n.Z
  TX := mbb.Min.X.val + o.X / (dim / scale.val)
  TY := mbb.Min.Y.val + o.Y / (dim / scale.val)
  TZ := mbb.Min.Z.val + o.Z / (dim / scale.val)
  Scale := (dimOf n.X n.Y n.Z : Int) / (dim / scale.val)
  WhiteVoxels := none
  ColorVoxels := none

end StlDice.Spec
