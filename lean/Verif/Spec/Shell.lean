import Verif.Model.VShell

/-! # Specification of the outer shell of a voxel set -/

namespace StlDice.Spec

/-- `(x,y,z)` is one of the 26 neighbour offsets. -/
def IsOffset (x y z : Int) : Prop :=
  (-1 ≤ x ∧ x ≤ 1) ∧ (-1 ≤ y ∧ y ≤ 1) ∧ (-1 ≤ z ∧ z ≤ 1) ∧ ¬ (x = 0 ∧ y = 0 ∧ z = 0)

/-- The bit map `N` of voxel `k` records exactly the neighbours in `S`: bit `9(x+1)+3(y+1)+(z+1)` is
    set iff the neighbour at offset `(x,y,z)` is in `S`; no other bit is ever set. -/
def NbrSpec (S : Key → Prop) (k : Key) (N : NeighborBitMap) : Prop :=
  ∀ i : Nat, N.getLsbD i = true ↔
    ∃ x y z : Int, IsOffset x y z ∧ (i : Int) = 9 * (x + 1) + 3 * (y + 1) + (z + 1) ∧ S (k.shift x y z)

/-- `k` misses at least one of its 26 neighbours in `S`. -/
def Exposed (S : Key → Prop) (k : Key) : Prop := ∃ x y z : Int, IsOffset x y z ∧ ¬ S (k.shift x y z)

/-- `vs` is exactly the outer shell of `S`: every exposed voxel of `S` once, with its neighbours. -/
def IsShell (S : Key → Prop) (vs : List VShVoxel) : Prop :=
  (vs.map VShVoxel.key).Nodup ∧
  ∀ v, v ∈ vs ↔ S v.key ∧ Exposed S v.key ∧ NbrSpec S v.key v.N

/-- `vs` holds the outer shell of `S`, perhaps with out-of-date neighbour maps: no position twice, only
    voxels of `S`, every exposed voxel of `S`, and every neighbour recorded in a bit map is really there
    (a bit may be missing, and a voxel that has meanwhile been enclosed may still be listed). -/
structure HoldsShell (S : Key → Prop) (vs : List VShVoxel) : Prop where
  nodup : (vs.map VShVoxel.key).Nodup
  inside : ∀ v ∈ vs, S v.key
  covers : ∀ k, S k → Exposed S k → k ∈ vs.map VShVoxel.key
  bits : ∀ v ∈ vs, ∀ i : Nat, v.N.getLsbD i = true →
    ∃ x y z : Int, IsOffset x y z ∧ (i : Int) = 9 * (x + 1) + 3 * (y + 1) + (z + 1) ∧ S (v.key.shift x y z)

end StlDice.Spec

namespace StlDice.Spec
variable {F : Type}

/-- The voxels of a model, white or coloured. -/
def Occ (b : BinVOX F) (k : Key) : Prop := b.white.has k = true ∨ b.color.has k = true

/-- The voxel set `S` moved by `o`. -/
def Moved (S : Key → Prop) (o : Key) (k : Key) : Prop := S ⟨k.X - o.X, k.Y - o.Y, k.Z - o.Z⟩

/-- Union of two voxel sets. -/
def KUnion (S T : Key → Prop) (k : Key) : Prop := S k ∨ T k

/-- The displacement, in whole voxels of the shell, of model `b` with respect to shell `vs`. -/
def displacement [GoFloat F] (vs : VShell F) (b : BinVOX F) : Key :=
  ⟨GoFloat.toInt (GoFloat.mul (GoFloat.sub b.TX vs.TX) vs.VoxelsPerMM),
   GoFloat.toInt (GoFloat.mul (GoFloat.sub b.TY vs.TY) vs.VoxelsPerMM),
   GoFloat.toInt (GoFloat.mul (GoFloat.sub b.TZ vs.TZ) vs.VoxelsPerMM)⟩

/-- No component is negative. -/
def NonNeg (d : Key) : Prop := d.X ≥ 0 ∧ d.Y ≥ 0 ∧ d.Z ≥ 0

instance (d : Key) : Decidable (NonNeg d) := by unfold NonNeg; infer_instance

/-- How far `Add` moves the new voxels when the displacement is `d`. -/
def newMove (d : Key) : Key := if NonNeg d then d else ⟨0, 0, 0⟩

/-- How far `Add` moves the old voxels when the displacement is `d`. -/
def oldMove (d : Key) : Key := if NonNeg d then ⟨0, 0, 0⟩ else ⟨-d.X, -d.Y, -d.Z⟩

end StlDice.Spec
