import Verif.Model.CutDiceCmd

/-! # voxcut, voxcut-dice, manifold-mesh and marching-cubes killed at any moment -/

namespace StlDice
namespace Cmd
open GoFloat BinVOX

section
variable {F : Type} [GoFloat F] [FloatText F]

/-- The meshes voxcut may write for a model, cmd/voxcut/voxcut.go:104-118. -/
def CutMesh (lib : GL F) (fl : CutFlags) (b : BinVOX F) (tris : List (Tri (Vec F))) : Prop :=
  if fl.manifold then Manifold.ManifoldRun b tris else ToMeshRun lib b tris

/-- The files at a moment of `main` of voxcut, cmd/voxcut/voxcut.go:43-125, at which it is killed: before an
    output is created, or when the first bytes of an output, or all, are in its file and the outputs before it
    are complete.
    Simplification: what was written to a file is a beginning of its content (no power failure). -/
inductive VoxcutKilled (lib : GL F) (d : Disk) (fl : CutFlags) : Disk → Prop
  | early : VoxcutKilled lib d fl d
  | binvox {b p} (h : cutModel (F := F) d fl = some b) (h0 : fl.obinvox ≠ [])
      (hp : p <+: (b.write ⟨[], []⟩ fl.region).1.out) : VoxcutKilled lib d fl (put d fl.obinvox p)
  | vox {b env m p} (h : cutModel (F := F) d fl = some b) (h1 : (outBinvox fl b env d).2 = true) (h0 : fl.ovox ≠ [])
      (hm : m.Perm b.white) (hp : p <+: (writeVOX ⟨[], []⟩ m).1.out) :
      VoxcutKilled lib d fl (put (outBinvox fl b env d).1 fl.ovox p)
  | stl {b env m env2 tris p} (h : cutModel (F := F) d fl = some b) (h1 : (outBinvox fl b env d).2 = true)
      (hm : m.Perm b.white) (h2 : (outVox fl m env2 (outBinvox fl b env d).1).2 = true) (h0 : fl.ostl ≠ [])
      (ht : CutMesh lib fl b tris) (hp : p <+: lib.stl tris) :
      VoxcutKilled lib d fl (put (outVox fl m env2 (outBinvox fl b env d).1).1 fl.ostl p)

/-- The command voxcut (cmd/voxcut/voxcut.go:43-125) started any number of times with the same flags; each time it ran to an end of any
    kind or was killed. -/
inductive VoxcutTries (lib : GL F) (fl : CutFlags) : Disk → Disk → Prop
  | none (d : Disk) : VoxcutTries lib fl d d
  | ran {d d₁ d₂ : Disk} {e : Exit} : VoxcutTries lib fl d d₁ → VoxcutRun (F := F) lib d₁ fl d₂ e → VoxcutTries lib fl d d₂
  | killed {d d₁ d₂ : Disk} : VoxcutTries lib fl d d₁ → VoxcutKilled (F := F) lib d₁ fl d₂ → VoxcutTries lib fl d d₂

/-- One tile of voxcut-dice, cmd/voxcut-dice/voxcut-dice.go:56-82: run to any end, or killed (then it does not end well). -/
def AnyTile (float : Bytes → Bool) (lib : GL F) (fl : CutDiceFlags) (d : Disk) (t : Key) (d' : Disk) (e : Exit) : Prop :=
  runTile (F := F) float lib fl d t d' e ∨
    e ≠ .done ∧ ∃ cfl, voxcutFlags float (cutArgs fl t).tail = some cfl ∧ VoxcutKilled (F := F) lib d cfl d'

/-- The command voxcut-dice (cmd/voxcut-dice/voxcut-dice.go:24-86) started any number of times with the same
    arguments, not as a dry run; each time it ran to an end of any kind, or it was killed together with the
    voxcut of the tile it was at (between two tiles: the `early` kill of the later one).
    Simplification: a voxcut that outlives its killed voxcut-dice has ended before the next start. -/
inductive CutDiceTries (float : Bytes → Bool) (lib : GL F) (args : List Bytes) : Disk → Disk → Prop
  | none (d : Disk) : CutDiceTries float lib args d d
  | ran {d d₁ d₂ out e} : CutDiceTries float lib args d d₁ → CutDiceProc (F := F) float lib d₁ args out d₂ e →
      CutDiceTries float lib args d d₂
  | killed {d d₁ d₂ fl b e} : CutDiceTries float lib args d d₁ → cutDiceFlags args = some (false, fl) →
      cutDiceBase (F := F) d₁ fl = some b → DiceLoop (AnyTile (F := F) float lib fl) b.NX b.NY b.NZ fl.size 0 0 0 d₁ d₂ e →
      CutDiceTries float lib args d d₂

/-- The commands manifold-mesh and marching-cubes (cmd/manifold-mesh/manifold-mesh.go:18-43,
    cmd/marching-cubes/marching-cubes.go:19-44) started any number of times with the same arguments; each time
    the command ran to an end of any kind, or was killed: before the output was created, or when its first
    bytes, or all, were in its file. -/
inductive ConvertTries (mesh : BinVOX F → List (Tri (Vec F)) → Prop) (lib : GL F) (i o : Bytes) : Disk → Disk → Prop
  | none (d : Disk) : ConvertTries mesh lib i o d d
  | ran {d d₁ d₂ e} : ConvertTries mesh lib i o d d₁ → ConvertRun (F := F) mesh lib d₁ [i, o] d₂ e → ConvertTries mesh lib i o d d₂
  | killed {d d₁ b tris p} : ConvertTries mesh lib i o d d₁ →
      BinVOX.Read (F := F) (input d₁ i) ⟨0, 0, 0, 0, 0, 0⟩ = some b → mesh b tris → p <+: lib.stl tris →
      ConvertTries mesh lib i o d (put d₁ o p)

end
end Cmd
end StlDice
