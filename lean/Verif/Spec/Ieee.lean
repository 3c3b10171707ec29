import Verif.Model.Ieee
import Verif.Model.Dice

/-! # Full float64 numbers that stand for finite ones -/

namespace StlDice.Spec
open BinVOX

/-- The float64 `y` is finite and is the number `x`. -/
def Is (x : F64) (y : Ieee) : Prop := ∃ s a h, y = .fin s a h ∧ (if s then -a else a) = x.val

/-- Not a number, or infinite. -/
def NotFinite (x : Ieee) : Prop := x = .nan ∨ ∃ s, x = .inf s

/-- The same point. -/
def IsVec (p : Vec F64) (q : Vec Ieee) : Prop := Is p.X q.X ∧ Is p.Y q.Y ∧ Is p.Z q.Z

/-- The same mesh. -/
structure IsMesh (m : Mesh F64) (n : Mesh Ieee) : Prop where
  tris : n.Triangles = m.Triangles
  corners : ∀ p ∈ m.Triangles, IsVec (m.heap p).V1.Position (n.heap p).V1.Position ∧
    IsVec (m.heap p).V2.Position (n.heap p).V2.Position ∧ IsVec (m.heap p).V3.Position (n.heap p).V3.Position
  normals : ∀ p ∈ m.Triangles, IsVec (m.heap p).V1.Normal (n.heap p).V1.Normal

/-- The same model: size, place, scale and voxels (whatever their colours). -/
structure IsModel (b : BinVOX F64) (c : BinVOX Ieee) : Prop where
  nx : c.NX = b.NX
  ny : c.NY = b.NY
  nz : c.NZ = b.NZ
  tx : Is b.TX c.TX
  ty : Is b.TY c.TY
  tz : Is b.TZ c.TZ
  scale : Is b.Scale c.Scale
  white : c.white = b.white
  color : c.color.map Prod.fst = b.color.map Prod.fst

/-- All coordinates of the point are at most `R`. -/
def PointWithin (R : ℚ) (p : Vec F64) : Prop := |p.X.val| ≤ R ∧ |p.Y.val| ≤ R ∧ |p.Z.val| ≤ R

/-- Mesh and region within `R ≤ 2^200` of the origin, at a moderate resolution, with less than `2^50` voxels along `R`. -/
structure ModerateVox (R : ℚ) (b : BinVOX F64) (m : Mesh F64) : Prop where
  reach : R ≤ 2 ^ 200
  lo : 1 / 2 ^ 200 ≤ b.VoxelsPerMM.val
  hi : b.VoxelsPerMM.val ≤ 2 ^ 200
  grid : b.VoxelsPerMM.val * R ≤ 2 ^ 50
  dim : |dimOf b.NX b.NY b.NZ| ≤ 2 ^ 62
  corner : |b.TX.val| ≤ R ∧ |b.TY.val| ≤ R ∧ |b.TZ.val| ≤ R
  points : ∀ p ∈ m.Triangles, PointWithin R (m.heap p).V1.Position ∧ PointWithin R (m.heap p).V2.Position ∧
    PointWithin R (m.heap p).V3.Position
  normals : ∀ p ∈ m.Triangles, PointWithin (2 ^ 200) (m.heap p).V1.Normal

/-- The same box. -/
def IsBox (x : Box F64) (y : Box Ieee) : Prop := IsVec x.Min y.Min ∧ IsVec x.Max y.Max

/-- The same layout of a job. -/
structure IsLayout (L : Layout F64) (K : Layout Ieee) : Prop where
  vpmm : Is L.vpmm K.vpmm
  mmpv : Is L.mmpv K.mmpv
  modelX : K.modelX = L.modelX
  modelY : K.modelY = L.modelY
  modelZ : K.modelZ = L.modelZ
  dimX : K.dimX = L.dimX
  dimY : K.dimY = L.dimY
  dimZ : K.dimZ = L.dimZ
  subScale : Is L.subScale K.subScale

/-- A job with mesh and box within `R ≤ 2^100` of the origin and a moderate resolution `dim/scale`. -/
structure ModerateJob (R : ℚ) (mbb : Box F64) (scale : F64) (dim : Int) (m : Mesh F64) : Prop where
  wide : 0 < scale.val
  dim0 : 0 < dim
  dim1 : dim ≤ 2 ^ 53
  reach : R ≤ 2 ^ 100
  lo : 1 / 2 ^ 100 ≤ dim / scale.val
  hi : dim / scale.val ≤ 2 ^ 100
  grid : dim / scale.val * R ≤ 2 ^ 40
  box : PointWithin R mbb.Min ∧ PointWithin R mbb.Max
  up : mbb.Min.X.val ≤ mbb.Max.X.val ∧ mbb.Min.Y.val ≤ mbb.Max.Y.val ∧ mbb.Min.Z.val ≤ mbb.Max.Z.val
  points : ∀ p ∈ m.Triangles, PointWithin R (m.heap p).V1.Position ∧ PointWithin R (m.heap p).V2.Position ∧
    PointWithin R (m.heap p).V3.Position
  normals : ∀ p ∈ m.Triangles, PointWithin (2 ^ 200) (m.heap p).V1.Normal

end StlDice.Spec
