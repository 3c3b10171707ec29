import Verif.Model.Script

/-! # A script of stldice that is killed, or whose commands fail, and is run again -/

namespace StlDice
namespace Cmd
open GoFloat BinVOX

section
variable {F : Type} [GoFloat F] [FloatText F]

/-- A line of the script, run with any outcome: bash goes on after a command that fails (no `-e`,
    cmd/stldice/stldice.go:100). -/
def AnyLine (lib : GL F) (load : Bytes → Option (List (Tri (Vec F)))) (workers : Nat) (d : Disk) (ws : List Bytes) (d' : Disk) : Prop :=
  ∃ e, LineRun lib load workers d ws d' e

/-- The script (cmd/stldice/stldice.go:100-120), run until the end or killed at any moment: some lines were run, with any outcomes, the others not.
    A command killed while it writes its file has left a part of the file, like one whose write failed
    (cmd/voxcut/voxcut.go:119, cmd/merge-stl/merge-stl.go:54): that is one of the outcomes of its line.
    Simplification: what was written to a file is a beginning of its content (no power failure). -/
def CutShort (lib : GL F) (load : Bytes → Option (List (Tri (Vec F)))) (workers : Nat) (lines : List (List Bytes)) (d d' : Disk) : Prop :=
  ∃ run rest, lines = run ++ rest ∧ ScriptRun (AnyLine lib load workers) d run d'

/-- Any number of such runs of the same script (cmd/stldice/stldice.go:100-120). -/
inductive EarlierRuns (lib : GL F) (load : Bytes → Option (List (Tri (Vec F)))) (workers : Nat) (lines : List (List Bytes)) : Disk → Disk → Prop
  | none (d : Disk) : EarlierRuns lib load workers lines d d
  | again {d d₁ d₂ : Disk} : EarlierRuns lib load workers lines d d₁ → CutShort lib load workers lines d₁ d₂ →
      EarlierRuns lib load workers lines d d₂

end
end Cmd
end StlDice
