import Verif.Model.SvxCmd
import Verif.Model.SvxLocal
import Verif.Model.MrCmd

/-! # svx2stl, stl2svx and stldice-mr killed at any moment -/

namespace StlDice
namespace Cmd
open GoFloat BinVOX

section
variable {F : Type} [GoFloat F]

/-- The files at a moment of the loop of svx2stl, cmd/svx2stl/main.go:34-47, at which it is killed: before the output of an argument is
    created, or when its first bytes, or all, are in its file; the outputs of the arguments before it are complete.
    Simplification: what was written to a file is a beginning of its content (no power failure). -/
inductive Svx2StlKilled (unzip : Bytes → Option (List (ZFile F))) (lib : GL F) : Disk → List Bytes → Disk → Prop
  | before {d args} : Svx2StlKilled unzip lib d args d
  | during {d a args b tris p} (h : svxOpen unzip d a = .ok b) (ht : Marching.MarchingRun b tris) (hp : p <+: lib.stl tris) :
      Svx2StlKilled unzip lib d (a :: args) (put d (svxOut a) p)
  | next {d a args b tris d1 d'} (h : svxOpen unzip d a = .ok b) (ht : Marching.MarchingRun b tris)
      (hs : Save d (svxOut a) (lib.stl tris) d1 true) (hk : Svx2StlKilled unzip lib d1 args d') :
      Svx2StlKilled unzip lib d (a :: args) d'

/-- The command svx2stl (cmd/svx2stl/main.go:27-50) started any number of times with the same arguments; each time it ran to an end of any
    kind or was killed. -/
inductive Svx2StlTries (unzip : Bytes → Option (List (ZFile F))) (lib : GL F) (args : List Bytes) : Disk → Disk → Prop
  | none (d : Disk) : Svx2StlTries unzip lib args d d
  | ran {d d₁ d₂ e} : Svx2StlTries unzip lib args d d₁ → Svx2StlProc unzip lib d₁ args d₂ e → Svx2StlTries unzip lib args d d₂
  | killed {d d₁ d₂ sets files} : Svx2StlTries unzip lib args d d₁ →
      Flag.parse (fun _ => none) (fun _ => false) args = .ok sets files → Svx2StlKilled unzip lib d₁ files d₂ →
      Svx2StlTries unzip lib args d d₂

end
end Cmd

namespace Local
open GoFloat BinVOX Cmd Net

section
variable {F : Type} [GoFloat F]

/-- The command stl2svx (cmd/stl2svx/stl2svx.go:44-76) started any number of times with the same arguments; each time it ran to an end of
    any kind, or was killed: before the archive was created (nothing changes), or afterwards, with anything in it. -/
inductive LocalTries (lib : Lib F) (codec : Codec F) (args : List Bytes) : Disk → Disk → Prop
  | none (d : Disk) : LocalTries lib codec args d d
  | ran {d d₁ d₂ e} : LocalTries lib codec args d d₁ → LocalProc lib codec d₁ args d₂ e → LocalTries lib codec args d d₂
  | killed {d d₁ fl n ns base L p} : LocalTries lib codec args d d₁ → localFlags args = some fl → fl.bucket = [] → fl.stl ≠ [] →
      split 44 fl.stl = n :: ns → (d₁ n).bind lib.load = some base →
      layout (lib.bbox base) (boxScale (lib.bbox base)) fl.dim fl.nx fl.ny fl.nz = .ok L →
      LocalTries lib codec args d (put d₁ (zipName fl.dim) p)

end
end Local

namespace Mr
open GoFloat BinVOX Cmd Net

section
variable {F : Type} [GoFloat F]

/-- A run of stldice-mr, cmd/stldice-mr/stldice-mr.go:42-169, in which all files can be loaded and every image is written. -/
def MrWhole (lib : Lib F) (png : Image → Bytes) (d : Disk) (args : List Bytes) (d' : Disk) : Prop :=
  ∃ fl n ns base cuts L, mrFlags args = some fl ∧ fl.stl ≠ [] ∧ split 44 fl.stl = n :: ns ∧ (d n).bind lib.load = some base ∧
    layout (lib.bbox base) (boxScale (lib.bbox base)) fl.dim fl.nx fl.ny fl.nz = .ok L ∧ loadSTL lib d ns = some cuts ∧
    MrDone png d fl (mrJobs lib L fl.nx fl.ny fl.nz base cuts) true d'

/-- The files at any moment of a run of stldice-mr, cmd/stldice-mr/stldice-mr.go:42-169 and 264-280: anything, or nothing, may
    have happened to the images of the slices the mappers emit voxels of, and nothing to other files; if a file after the
    first cannot be loaded, of the images nothing is known. -/
def MrMoment (lib : Lib F) (d : Disk) (args : List Bytes) (d' : Disk) : Prop :=
  d' = d ∨
  (∃ fl n ns base L, mrFlags args = some fl ∧ fl.stl ≠ [] ∧ split 44 fl.stl = n :: ns ∧ (d n).bind lib.load = some base ∧
    layout (lib.bbox base) (boxScale (lib.bbox base)) fl.dim fl.nx fl.ny fl.nz = .ok L ∧ loadSTL lib d ns = none ∧
    ∀ n, (∀ z, n ≠ mrName fl.dim fl.nx fl.ny fl.nz z) → d' n = d n) ∨
  ∃ fl n ns base cuts L ess, mrFlags args = some fl ∧ fl.stl ≠ [] ∧ split 44 fl.stl = n :: ns ∧ (d n).bind lib.load = some base ∧
    layout (lib.bbox base) (boxScale (lib.bbox base)) fl.dim fl.nx fl.ny fl.nz = .ok L ∧ loadSTL lib d ns = some cuts ∧
    List.Forall₂ MrEmitRun (mrJobs lib L fl.nx fl.ny fl.nz base cuts) ess ∧
    ∀ n, (∀ z, mrGroup z ess.flatten ≠ [] → n ≠ mrName fl.dim fl.nx fl.ny fl.nz z) → d' n = d n

/-- The command stldice-mr started any number of times with the same arguments, and each time killed at any moment (or ended, in
    whatever way). -/
inductive MrTries (lib : Lib F) (args : List Bytes) : Disk → Disk → Prop
  | none (d : Disk) : MrTries lib args d d
  | killed {d d₁ d₂} : MrTries lib args d d₁ → MrMoment lib d₁ args d₂ → MrTries lib args d d₂

end
end Mr
end StlDice
