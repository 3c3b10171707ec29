import Verif.Model.Float64
import Verif.Spec.Mesh

/-! # Meshes in float64: what is compared with what -/

namespace StlDice
namespace Spec

/-- The coordinate of the centre of voxel `c` of an axis as float64 arithmetic gives it: `(c + 0.5) * mmpv + t`, where
    `mmpv = 1/v`, each operation rounded. -/
def coord64 (v t : ℚ) (c : Int) : ℚ :=
  F64.rnd (F64.rnd (((c : ℚ) + 1 / 2) * F64.rnd (1 / v)) + t)

/-- The centre of voxel `k` as float64 arithmetic gives it. -/
def centre64 (b : BinVOX F64) (k : Key) : BinVOX.Vec ℚ :=
  ⟨coord64 b.VoxelsPerMM.val b.TX.val k.X, coord64 b.VoxelsPerMM.val b.TY.val k.Y,
   coord64 b.VoxelsPerMM.val b.TZ.val k.Z⟩

/-- Half the step from `p` to `q` is a float64 in every coordinate. -/
def HalfStep (p q : BinVOX.Vec ℚ) : Prop :=
  Binary64 ((q.X - p.X) / 2) ∧ Binary64 ((q.Y - p.Y) / 2) ∧ Binary64 ((q.Z - p.Z) / 2)

/-- All voxels have coordinates of at most `2^50` (a grid that fits in memory is far smaller). -/
def SmallGrid {F : Type} [GoFloat F] (b : BinVOX F) : Prop :=
  ∀ k, Present b k → |k.X| ≤ 2 ^ 50 ∧ |k.Y| ≤ 2 ^ 50 ∧ |k.Z| ≤ 2 ^ 50

/-- The same model with its numbers as exact numbers. -/
def exactModel (b : BinVOX F64) : BinVOX ℚ where
  NX := b.NX
  NY := b.NY
  NZ := b.NZ
  TX := b.TX.val
  TY := b.TY.val
  TZ := b.TZ.val
  Scale := b.Scale.val
  WhiteVoxels := b.WhiteVoxels
  ColorVoxels := b.ColorVoxels.map fun m => m.map fun e => (e.1, ⟨e.2.R.val, e.2.G.val, e.2.B.val, e.2.A.val⟩)

/-- `y` is off from `x` by at most `2^-48` times the sum of the sizes of `x - t`, `t` and a voxel: the last few bits. -/
def CloseAt (v t x y : ℚ) : Prop := |y - x| ≤ (|x - t| + |t| + 1 / v) / 2 ^ 48

/-- The float64 point `q` is close to `p` in every coordinate. -/
def CloseTo (b : BinVOX ℚ) (p : BinVOX.Vec ℚ) (q : BinVOX.Vec F64) : Prop :=
  CloseAt b.VoxelsPerMM b.TX p.X q.X.val ∧ CloseAt b.VoxelsPerMM b.TY p.Y q.Y.val ∧ CloseAt b.VoxelsPerMM b.TZ p.Z q.Z.val

/-- The three corners of a triangle are close to those of the other, in the same order. -/
def CloseTri (b : BinVOX ℚ) (s : Tri (BinVOX.Vec ℚ)) (t : Tri (BinVOX.Vec F64)) : Prop :=
  CloseTo b s.V1 t.V1 ∧ CloseTo b s.V2 t.V2 ∧ CloseTo b s.V3 t.V3

/-- Resolutions between `2^-900` and `2^900` voxels per millimetre, in a grid of at most `2^53` voxels along an axis. -/
def Ordinary (b : BinVOX F64) : Prop :=
  (2 : ℚ) ^ (-900 : Int) ≤ (exactModel b).VoxelsPerMM ∧ (exactModel b).VoxelsPerMM ≤ 2 ^ (900 : Int) ∧ |b.Dim| ≤ 2 ^ 53

end Spec
end StlDice
