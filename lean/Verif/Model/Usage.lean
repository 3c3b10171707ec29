import Verif.Model.CmdLines

/-! # The command lines of manifold-mesh, marching-cubes and merge-binvox -/

namespace StlDice
namespace Cmd
open GoFloat BinVOX

section
variable {F : Type} [GoFloat F] [FloatText F]

/-- `main` of manifold-mesh (cmd/manifold-mesh/manifold-mesh.go:18-43) or marching-cubes
    (cmd/marching-cubes/marching-cubes.go:19-44) with these arguments; they declare no flags. -/
inductive ConvertProc (mesh : BinVOX F → List (Tri (Vec F)) → Prop) (lib : GL F) (d : Disk) (args : List Bytes) :
    Disk → Exit → Prop
  | usage {ok} (h : Flag.parse (fun _ => none) (fun _ => false) args = .exit ok) :
      ConvertProc mesh lib d args d (if ok then .done else .fatal)
  | run {sets files d' e} (h : Flag.parse (fun _ => none) (fun _ => false) args = .ok sets files)
      (hr : ConvertRun mesh lib d files d' e) : ConvertProc mesh lib d args d' e

/-- `main` of merge-binvox with these arguments, cmd/merge-binvox/merge-binvox.go:21-58. -/
inductive MergeBinvoxProc (F : Type) [GoFloat F] [FloatText F] (d : Disk) (sch : Bytes → AddSched) (args : List Bytes) :
    Disk → Exit → Prop
  | usage {ok} (h : Flag.parse mergeBinvoxKind (fun _ => false) args = .exit ok) :
      MergeBinvoxProc F d sch args d (if ok then .done else .fatal)
  | run {force p names d' e} (h : mergeBinvoxFlags args = some (force, p)) (hg : Glob d p (ascii ".binvox") names)
      (hr : MergeBinvoxRun (F := F) d sch p force names d' e) : MergeBinvoxProc F d sch args d' e

end
end Cmd
end StlDice
