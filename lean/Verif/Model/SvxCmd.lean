import Verif.Model.SvxRead
import Verif.Model.Marching
import Verif.Model.Commands
import Verif.Model.Flag

/-! # The command svx2stl from its command line to the files it leaves: cmd/svx2stl/main.go:27-50 -/

namespace StlDice
namespace Cmd
open GoFloat BinVOX

/-- `strings.TrimSuffix(svxFile, ".svx") + ".stl"`, cmd/svx2stl/main.go:35. -/
def svxOut (s : Bytes) : Bytes :=
  (match stripPrefix (ascii ".svx").reverse s.reverse with
    | some r => r.reverse
    | none => s) ++ ascii ".stl"

section
variable {F : Type} [GoFloat F]

/-- `read`, cmd/svx2stl/main.go:52-93, of a file: `unzip` opens the archive and decodes its entries (libraries
    archive/zip, encoding/xml, image/png); a missing file and a file that is no archive are errors. -/
def svxOpen (unzip : Bytes → Option (List (ZFile F))) (d : Disk) (name : Bytes) : Res (BinVOX F) :=
  match (d name).bind unzip with
  | none => .err
  | some files => svxLoad files

/-- The loop over the arguments, cmd/svx2stl/main.go:34-47. -/
inductive Svx2StlLoop (unzip : Bytes → Option (List (ZFile F))) (lib : GL F) : Disk → List Bytes → Disk → Exit → Prop
  | nil {d} : Svx2StlLoop unzip lib d [] d .done
  | unreadable {d a args} (h : svxOpen unzip d a = .err) : Svx2StlLoop unzip lib d (a :: args) d .fatal
  | panics {d a args} (h : svxOpen unzip d a = .panic) : Svx2StlLoop unzip lib d (a :: args) d .panic
  | unsaved {d a args b tris d1} (h : svxOpen unzip d a = .ok b) (ht : Marching.MarchingRun b tris)
      (hs : Save d (svxOut a) (lib.stl tris) d1 false) : Svx2StlLoop unzip lib d (a :: args) d1 .fatal
  | next {d a args b tris d1 d' e} (h : svxOpen unzip d a = .ok b) (ht : Marching.MarchingRun b tris)
      (hs : Save d (svxOut a) (lib.stl tris) d1 true) (hr : Svx2StlLoop unzip lib d1 args d' e) :
      Svx2StlLoop unzip lib d (a :: args) d' e

/-- `main` of svx2stl with these arguments, cmd/svx2stl/main.go:27-50: it declares no flags. -/
inductive Svx2StlProc (unzip : Bytes → Option (List (ZFile F))) (lib : GL F) (d : Disk) (args : List Bytes) :
    Disk → Exit → Prop
  | usage {ok} (h : Flag.parse (fun _ => none) (fun _ => false) args = .exit ok) :
      Svx2StlProc unzip lib d args d (if ok then .done else .fatal)
  | run {sets files d' e} (h : Flag.parse (fun _ => none) (fun _ => false) args = .ok sets files)
      (hr : Svx2StlLoop unzip lib d files d' e) : Svx2StlProc unzip lib d args d' e

end
end Cmd
end StlDice
