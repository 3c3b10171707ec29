import Verif.Spec.Format
import Verif.Model.VShellIO

/-! # Specification vocabulary for vsh files -/

namespace StlDice.Spec

/-- A value that does not denote a voxel: 0 or 0xffffffff. -/
def Special (v : BitVec 32) : Prop := v = 0#32 ∨ v = 0xffffffff#32

instance (v : BitVec 32) : Decidable (Special v) := by unfold Special; infer_instance

/-- Bytes of one record: the value, 4 bytes little endian; then the count, two bytes little endian
    after a special value and one byte otherwise. -/
def recBytes (p : BitVec 32 × Nat) : Bytes :=
  le32 p.1 ++ if Special p.1 then le16 p.2 else [UInt8.ofNat p.2]

/-- Bytes of a list of records. -/
def recsBytes (ps : List (BitVec 32 × Nat)) : Bytes := ps.flatMap recBytes

/-- Counts that fit: 0..65535 after a special value, 1..255 otherwise. -/
def LegalRec (p : BitVec 32 × Nat) : Prop :=
  if Special p.1 then p.2 < 65536 else 1 ≤ p.2 ∧ p.2 ≤ 255

/-- All records legal. -/
def LegalRecs (ps : List (BitVec 32 × Nat)) : Prop := ∀ p ∈ ps, LegalRec p

/-- The voxel values described by records or runs. -/
def expandV (ps : List (BitVec 32 × Nat)) : List (BitVec 32) :=
  ps.flatMap fun p => List.replicate p.2 p.1

/-- `ps` is the decomposition of `vals` into maximal runs of equal values (there is exactly one). -/
def MaximalRuns (vals : List (BitVec 32)) (ps : List (BitVec 32 × Nat)) : Prop :=
  expandV ps = vals ∧ (∀ p ∈ ps, 0 < p.2) ∧ List.IsChain (fun p q => p.1 ≠ q.1) ps

/-- No value occurs 65536 times in a row. -/
def NoLongRun (vals : List (BitVec 32)) : Prop := ∀ v, ¬ (List.replicate 65536 v <:+: vals)

/-- Runs of 65536 and more equal values occur only in the empty cells at the very end: whenever one
    value fills 65536 consecutive cells it is 0 and everything after it is 0 too. -/
def LongRunsTrail (vals : List (BitVec 32)) : Prop :=
  ∀ a v c, vals = a ++ List.replicate 65536 v ++ c → v = 0#32 ∧ ∀ x ∈ c, x = 0#32

/-- The value a shell holds at a position: the value of the *last* voxel listed there, 0 if none. -/
def valueAt {F : Type} (b : VShell F) (k : Key) : BitVec 32 :=
  match b.Voxels.reverse.find? (fun v => v.key = k) with
  | some v => v.N
  | none => 0#32

end StlDice.Spec
