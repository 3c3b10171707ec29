import Verif.Model.Flag
import Verif.Model.CutDiceCmd
import Verif.Model.MbbText
import Verif.Model.Script

/-! # The command lines of stldice, merge-stl and merge-binvox, and scripts run as command lines -/

namespace StlDice
namespace Cmd
open GoFloat BinVOX

/-- The flags merge-stl declares, cmd/merge-stl/merge-stl.go:15-19. -/
def mergeStlKind : Bytes → Option Flag.Kind := Flag.table [("f", .bool), ("num", .int), ("prefix", .str)]

/-- What merge-stl understands of its command line, cmd/merge-stl/merge-stl.go:15-27: `-f`, `-num` and
    `-prefix`; further arguments are ignored. -/
def mergeStlFlags (args : List Bytes) : Option (Bool × Int × Bytes) :=
  match Flag.parse mergeStlKind (fun _ => false) args with
  | .exit _ => none
  | .ok sets _ => some (Flag.getBool sets (ascii "f"), Flag.getInt sets (ascii "num") 10,
      (Flag.get sets (ascii "prefix")).getD (ascii "out"))

/-- The flags merge-binvox declares, cmd/merge-binvox/merge-binvox.go:16-19. -/
def mergeBinvoxKind : Bytes → Option Flag.Kind := Flag.table [("f", .bool), ("prefix", .str)]

/-- What merge-binvox understands of its command line, cmd/merge-binvox/merge-binvox.go:16-27. -/
def mergeBinvoxFlags (args : List Bytes) : Option (Bool × Bytes) :=
  match Flag.parse mergeBinvoxKind (fun _ => false) args with
  | .exit _ => none
  | .ok sets _ => some (Flag.getBool sets (ascii "f"), (Flag.get sets (ascii "prefix")).getD (ascii "out"))

/-- The flags stldice declares, cmd/stldice/stldice.go:25-31. -/
def stldiceKind : Bytes → Option Flag.Kind :=
  Flag.table [("mbb", .str), ("dim", .int), ("nx", .int), ("ny", .int), ("nz", .int), ("smooth", .float)]

section
variable {F : Type} [GoFloat F] [FloatText F]

/-- What stldice understands of its command line, cmd/stldice/stldice.go:25-31, 42, 52-58 (`-smooth` is left
    out, as in `DiceFlags`). -/
def stldiceFlags (float : Bytes → Bool) (args : List Bytes) : Option (DiceFlags F) :=
  match Flag.parse stldiceKind float args with
  | .exit _ => none
  | .ok sets rest => some {
      mbb := if Flag.getStr sets (ascii "mbb") = [] then none else some (parseMBB (Flag.getStr sets (ascii "mbb")))
      dim := Flag.getInt sets (ascii "dim") 8192
      nx := Flag.getInt sets (ascii "nx") 8
      ny := Flag.getInt sets (ascii "ny") 8
      nz := Flag.getInt sets (ascii "nz") 1
      args := rest }

/-- `main` of stldice with these arguments, cmd/stldice/stldice.go:36-123. -/
inductive StldiceProc (float : Bytes → Bool) (load : Bytes → Option (Mesh F)) (bbox : Mesh F → Box F)
    (env : Bytes → Key → FileEnv) (args : List Bytes) (fs : FS) : Bytes → FS → Exit → Prop
  | usage {ok} (h : Flag.parse stldiceKind float args = .exit ok) :
      StldiceProc float load bbox env args fs [] fs (if ok then .done else .fatal)
  | run {fl out fs' e} (h : stldiceFlags float args = some fl) (hr : DiceCmd load bbox env fl fs out fs' e) :
      StldiceProc float load bbox env args fs out fs' e

/-- `main` of merge-stl with these arguments, cmd/merge-stl/merge-stl.go:21-58; a negative number of workers
    makes `make(chan struct{}, numWorkers)` panic, stl/stl.go:14. -/
inductive MergeStlProc (lib : GL F) (load : Bytes → Option (List (Tri (Vec F)))) (d : Disk) (args : List Bytes) :
    Disk → Exit → Prop
  | usage {ok} (h : Flag.parse mergeStlKind (fun _ => false) args = .exit ok) :
      MergeStlProc lib load d args d (if ok then .done else .fatal)
  | run {force num p names d' e} (h : mergeStlFlags args = some (force, num, p)) (hn : 0 ≤ num)
      (hg : Glob d p (ascii ".stl") names)
      (hr : MergeStlRun (fun n => (d n).bind load) lib d p force num.toNat names d' e) : MergeStlProc lib load d args d' e
  | negative {force num p names} (h : mergeStlFlags args = some (force, num, p)) (hn : num < 0)
      (hg : Glob d p (ascii ".stl") names) :
      MergeStlProc lib load d args d
        (if mergeInputs (p ++ ascii ".stl") force names = none then .fatal else .panic)

/-- One line of a script, run by bash as a command with its arguments (see Model/Script for what is assumed
    of bash). -/
inductive LineProc (float : Bytes → Bool) (lib : GL F) (load : Bytes → Option (List (Tri (Vec F)))) (d : Disk) :
    List Bytes → Disk → Exit → Prop
  | comment {w ws} (h : w.head? = some 35) : LineProc float lib load d (w :: ws) d .done
  | voxcut {args d' e} (h : VoxcutProc (F := F) float lib d args d' e) :
      LineProc float lib load d (ascii "voxcut" :: args) d' e
  | merge {args d' e} (h : MergeStlProc lib load d args d' e) :
      LineProc float lib load d (ascii "merge-stl" :: args) d' e

/-- A line run in which every file could be written: nothing but a voxcut that has no base or nothing left
    fails. -/
def GoodProc (float : Bytes → Bool) (lib : GL F) (load : Bytes → Option (List (Tri (Vec F)))) (d : Disk) (ws : List Bytes)
    (d' : Disk) : Prop :=
  ∃ e, LineProc float lib load d ws d' e ∧
    (e = .fatal → ∃ args fl, ws = ascii "voxcut" :: args ∧ voxcutFlags float args = some fl ∧ cutModel (F := F) d fl = none)

end
end Cmd
end StlDice
