import Verif.Model.DiceCmd

/-!
# Running the script printed by stldice (cmd/stldice/stldice.go:100-120)

The commands are those of the modules `Voxcut`, `StlMerge` and `Commands`.  bash is modelled for scripts
whose words have no character that is special to it: lines end at newlines, words at blanks, a line that
starts with `#` does nothing, and the exit status of a command does not stop the script (no `-e`,
cmd/stldice/stldice.go:100).
-/

namespace StlDice
namespace Cmd
open BinVOX

/-- The lines of a text in which every line ends with a newline. -/
def splitLines : Bytes → List Bytes
  | [] => []
  | c :: cs =>
    if c = 10 then [] :: splitLines cs
    else match splitLines cs with
      | [] => [[c]]
      | w :: ws => (c :: w) :: ws

/-- The words of the lines of a script. -/
def shellWords (s : Bytes) : List (List Bytes) := (splitLines s).map splitSp

/-- The flags of `voxcut -ostl o files...`, cmd/voxcut/voxcut.go:29-40: all others have their default. -/
def stlFlags (o : Bytes) (files : List Bytes) : CutFlags := ⟨[], o, [], ⟨0, 0, 0, 0, 0, 0⟩, false, files⟩

/-- `filepath.Glob(p + "*" + ext)`, cmd/merge-stl/merge-stl.go:29, for `p` without special characters: the
    `*` stands for any text without a slash. -/
def Glob (d : Disk) (p ext : Bytes) (names : List Bytes) : Prop :=
  names.Nodup ∧ ∀ n, n ∈ names ↔ d n ≠ none ∧ ∃ mid, (47 : UInt8) ∉ mid ∧ n = p ++ mid ++ ext

section
variable {F : Type} [GoFloat F] [FloatText F]

/-- One line of a script of stldice; `load` is `gl.LoadSTL` on the content of a file. -/
inductive LineRun (lib : GL F) (load : Bytes → Option (List (Tri (Vec F)))) (workers : Nat) (d : Disk) :
    List Bytes → Disk → Exit → Prop
  | comment {w ws} (h : w.head? = some 35) : LineRun lib load workers d (w :: ws) d .done
  | voxcut {o files d' e} (h : VoxcutRun (F := F) lib d (stlFlags o files) d' e) :
      LineRun lib load workers d (ascii "voxcut" :: ascii "-ostl" :: o :: files) d' e
  | merge {p names d' e} (hg : Glob d p (ascii ".stl") names)
      (h : MergeStlRun (fun n => (d n).bind load) lib d p true workers names d' e) :
      LineRun lib load workers d [ascii "merge-stl", ascii "-f", ascii "-prefix", p] d' e

/-- A line run in which every file could be written: nothing but a voxcut that has no base or nothing left
    fails. -/
def GoodLine (lib : GL F) (load : Bytes → Option (List (Tri (Vec F)))) (workers : Nat) (d : Disk) (ws : List Bytes)
    (d' : Disk) : Prop :=
  ∃ e, LineRun lib load workers d ws d' e ∧
    (e = .fatal → ∃ o files, ws = ascii "voxcut" :: ascii "-ostl" :: o :: files ∧ cutModel (F := F) d (stlFlags o files) = none)

end

/-- The lines one after the other. -/
inductive ScriptRun (step : Disk → List Bytes → Disk → Prop) : Disk → List (List Bytes) → Disk → Prop
  | nil {d} : ScriptRun step d [] d
  | cons {d ws d' rest d''} (h : step d ws d') (hr : ScriptRun step d' rest d'') : ScriptRun step d (ws :: rest) d''

end Cmd
end StlDice
