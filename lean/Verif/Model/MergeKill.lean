import Verif.Model.Usage

/-! # merge-stl and merge-binvox killed at any moment -/

namespace StlDice
namespace Cmd
open GoFloat BinVOX

section
variable {F : Type} [GoFloat F] [FloatText F]

/-- The command merge-stl (cmd/merge-stl/merge-stl.go:21-58) started any number of times with the same arguments; each time it ran to
    an end of any kind, or it was killed: before its output was created (nothing changes), or when the first bytes, or all, of the output
    were in its file.
    Simplification: what was written to a file is a beginning of its content (no power failure). -/
inductive MergeStlTries (lib : GL F) (load : Bytes → Option (List (Tri (Vec F)))) (args : List Bytes) : Disk → Disk → Prop
  | none (d : Disk) : MergeStlTries lib load args d d
  | ran {d d₁ d₂ e} : MergeStlTries lib load args d d₁ → MergeStlProc lib load d₁ args d₂ e → MergeStlTries lib load args d d₂
  | killed {d d₁ force num p names files s tris q} : MergeStlTries lib load args d d₁ →
      mergeStlFlags args = some (force, num, p) → 0 ≤ num → Glob d₁ p (ascii ".stl") names →
      mergeInputs (p ++ ascii ".stl") force names = some files →
      PoolReach (fun n => (d₁ n).bind load) num.toNat (Pool.init files) s → s.returned = some (some (some tris)) →
      q <+: lib.stl tris → MergeStlTries lib load args d (put d₁ (p ++ ascii ".stl") q)

/-- The command merge-binvox (cmd/merge-binvox/merge-binvox.go:21-58) started any number of times with the same arguments, in the same
    way; the runtime's choices may differ from start to start. -/
inductive MergeBinvoxTries (F : Type) [GoFloat F] [FloatText F] (args : List Bytes) : Disk → Disk → Prop
  | none (d : Disk) : MergeBinvoxTries F args d d
  | ran {d d₁ d₂ e} {sch : Bytes → AddSched} : MergeBinvoxTries F args d d₁ → MergeBinvoxProc F d₁ sch args d₂ e → MergeBinvoxTries F args d d₂
  | killed {d d₁ force p names files vs q} {sch : Bytes → AddSched} : MergeBinvoxTries F args d d₁ →
      mergeBinvoxFlags args = some (force, p) → Glob d₁ p (ascii ".binvox") names →
      mergeInputs (p ++ ascii ".vsh") force names = some files →
      VShell.Merge (files.map fun f => (sch f, BinVOX.Read (F := F) (input d₁ f) ⟨0, 0, 0, 0, 0, 0⟩)) = some (some vs) →
      q <+: (vs.write ⟨[], []⟩ ⟨0, 0, 0, 0, 0, 0⟩).1.out → MergeBinvoxTries F args d (put d₁ (p ++ ascii ".vsh") q)

end
end Cmd
end StlDice
