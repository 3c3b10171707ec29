import Verif.Spec.Ieee
import Verif.Spec.Float64
import Verif.Model.VShell

/-! # Meshes and shells of full float64 numbers that stand for finite ones -/

namespace StlDice.Spec
open BinVOX

/-- The same triangle. -/
def IsTri (t : Tri (Vec F64)) (u : Tri (Vec Ieee)) : Prop := IsVec t.V1 u.V1 ∧ IsVec t.V2 u.V2 ∧ IsVec t.V3 u.V3

/-- The same triangles in the same order. -/
def SameTris : List (Tri (Vec F64)) → List (Tri (Vec Ieee)) → Prop := List.Forall₂ IsTri

/-- A finite number as a float64; zero is the positive zero. -/
def plain (x : F64) : Ieee := Ieee.round false x.val

/-- A point as float64 numbers. -/
def plainVec (p : Vec F64) : Vec Ieee := ⟨plain p.X, plain p.Y, plain p.Z⟩

/-- Corner within `2^200` of the origin, resolution between `2^-200` and `2^200`, voxels up to `2^50`. -/
structure ModerateModel (b : BinVOX F64) : Prop where
  lo : 1 / 2 ^ 200 ≤ b.VoxelsPerMM.val
  hi : b.VoxelsPerMM.val ≤ 2 ^ 200
  dim : |dimOf b.NX b.NY b.NZ| ≤ 2 ^ 62
  corner : |b.TX.val| ≤ 2 ^ 200 ∧ |b.TY.val| ≤ 2 ^ 200 ∧ |b.TZ.val| ≤ 2 ^ 200
  voxels : SmallGrid b

/-- The same shell. -/
structure SameShell (v : VShell F64) (w : VShell Ieee) : Prop where
  nx : w.NX = v.NX
  ny : w.NY = v.NY
  nz : w.NZ = v.NZ
  tx : Is v.TX w.TX
  ty : Is v.TY w.TY
  tz : Is v.TZ w.TZ
  scale : Is v.Scale w.Scale
  voxels : w.Voxels = v.Voxels

/-- A shell with its corner within `R ≤ 2^200` of the origin, a resolution between `2^-200` and `2^50` voxels per millimetre and at
    most `2^50` voxels along `R`. -/
structure ModerateShell (R : ℚ) (v : VShell F64) : Prop where
  reach : R ≤ 2 ^ 200
  scale : 0 < v.Scale.val
  dim0 : 0 < v.Dim
  dim1 : v.Dim ≤ 2 ^ 53
  lo : (2 : ℚ) ^ (-200 : Int) ≤ v.VoxelsPerMM.val
  hi : v.VoxelsPerMM.val ≤ 2 ^ 50
  grid : v.VoxelsPerMM.val * R ≤ 2 ^ 50
  corner : |v.TX.val| ≤ R ∧ |v.TY.val| ≤ R ∧ |v.TZ.val| ≤ R

/-- A model with its corner within `R ≤ 2^200` of the origin, a grid of at most `2^53` voxels a side, a resolution between `2^-199` and
    `2^49` voxels per millimetre and at most `2^49` voxels along `R`. -/
structure ModeratePart (R : ℚ) (b : BinVOX F64) : Prop where
  reach : R ≤ 2 ^ 200
  scale : 0 < b.Scale.val
  dim0 : 0 < b.Dim
  dim1 : b.Dim ≤ 2 ^ 53
  lo : (2 : ℚ) ^ (-199 : Int) ≤ b.VoxelsPerMM.val
  hi : b.VoxelsPerMM.val ≤ 2 ^ 49
  grid : b.VoxelsPerMM.val * R ≤ 2 ^ 49
  corner : |b.TX.val| ≤ R ∧ |b.TY.val| ≤ R ∧ |b.TZ.val| ≤ R

/-- The same inputs of a merge, with the same choices of the runtime; a file that cannot be read is the same in both. -/
def SameInputs : List (AddSched × Option (BinVOX F64)) → List (AddSched × Option (BinVOX Ieee)) → Prop :=
  List.Forall₂ fun f g => g.1 = f.1 ∧ ((f.2 = none ∧ g.2 = none) ∨ ∃ b c, f.2 = some b ∧ g.2 = some c ∧ IsModel b c)

/-- The same outcome of a merge: an error in both, no shell in both, or the same shell. -/
def SameMerge (r : Option (Option (VShell F64))) (r' : Option (Option (VShell Ieee))) : Prop :=
  (r = none ∧ r' = none) ∨ (r = some none ∧ r' = some none) ∨ ∃ vs ws, r = some (some vs) ∧ r' = some (some ws) ∧ SameShell vs ws

end StlDice.Spec
