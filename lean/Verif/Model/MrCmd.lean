import Verif.Model.SvxNet

/-!
# cmd/stldice-mr/stldice-mr.go from its command line to its files

The voxels each mapper emits and the image made of a group are those of Model/Svx.  Here: the flags, the files read,
and the files written.  Not modelled: gleam's own flags and how it runs the mappers, beyond this: each job is given to
the voxelizer once, and once all jobs are done each group of voxels with the same z is given to the imager once, in some
order; log output; the bytes of PNG files (parameter `png`).
-/

namespace StlDice
namespace Mr
open GoFloat BinVOX Cmd Net

/-- The flags that matter, cmd/stldice-mr/stldice-mr.go:31-35. -/
structure MrFlags where
  dim : Int
  nx : Int
  ny : Int
  nz : Int
  stl : Bytes

/-- Their declarations, cmd/stldice-mr/stldice-mr.go:31-38. -/
def mrKind : Bytes → Option Flag.Kind := Flag.table
  [("dim", .int), ("nx", .int), ("ny", .int), ("nz", .int), ("stl", .str), ("distributed", .bool), ("docker", .str)]

/-- What the program understands of its command line; other arguments are ignored. -/
def mrFlags (args : List Bytes) : Option MrFlags :=
  match Flag.parse mrKind (fun _ => false) args with
  | .exit _ => none
  | .ok sets _ => some {
      dim := Flag.getInt sets (ascii "dim") 8192
      nx := Flag.getInt sets (ascii "nx") 8
      ny := Flag.getInt sets (ascii "ny") 8
      nz := Flag.getInt sets (ascii "nz") 1
      stl := Flag.getStr sets (ascii "stl") }

/-- The name of the image of slice `z`, cmd/stldice-mr/stldice-mr.go:266. -/
def mrName (dim nx ny nz z : Int) : Bytes :=
  ascii "out-" ++ fmtInt dim ++ ascii "-" ++ fmtInt nx ++ ascii "-" ++ fmtInt ny ++ ascii "-" ++ fmtInt nz ++ ascii "-" ++
    fmtInt z ++ ascii ".png"

section
variable {F : Type} [GoFloat F]

/-- The jobs of all files, cmd/stldice-mr/stldice-mr.go:92-166; the base is the first. -/
def mrJobs (lib : Lib F) (L : Layout F) (nx ny nz : Int) (base : List (Tri (Vec F))) (cuts : List (List (Tri (Vec F)))) :
    List (BvInfo F) :=
  svxJobs L (lib.bbox base) nx ny nz ((lib.mesh base, lib.bbox base) :: cuts.map fun ts => (lib.mesh ts, lib.bbox ts))

/-- The files once the pipeline has ended, cmd/stldice-mr/stldice-mr.go:60-66 and 264-280.  The voxels emitted are `ess`.
    If every image could be written (`ok`) there is one file for each group; otherwise anything may be in a file with the
    name of an image. -/
inductive MrDone (png : Image → Bytes) (d : Disk) (fl : MrFlags) (jobs : List (BvInfo F)) : Bool → Disk → Prop
  | ok {ess : List (List (Int × VoxelInfo))} {img : Int → Image} {d'} (hm : List.Forall₂ MrEmitRun jobs ess)
      (hi : ∀ z, mrGroup z ess.flatten ≠ [] →
        (∃ vs : List VoxelInfo, vs.Perm (mrGroup z ess.flatten) ∧ MrImage fl.dim vs (img z)) ∧
        d' (mrName fl.dim fl.nx fl.ny fl.nz z) = some (png (img z)))
      (hu : ∀ n, (∀ z, mrGroup z ess.flatten ≠ [] → n ≠ mrName fl.dim fl.nx fl.ny fl.nz z) → d' n = d n) :
      MrDone png d fl jobs true d'
  | failed {d'} (hu : ∀ n, (∀ z, n ≠ mrName fl.dim fl.nx fl.ny fl.nz z) → d' n = d n) : MrDone png d fl jobs false d'

/-- `main` of stldice-mr, cmd/stldice-mr/stldice-mr.go:42-169.  The files are loaded one after another while the mappers
    run; if one cannot be loaded the driver ends, and what the mappers and the imager leave behind is not known. -/
inductive MrProc (lib : Lib F) (png : Image → Bytes) (d : Disk) (args : List Bytes) : Disk → Exit → Prop
  | usage {ok} (h : Flag.parse mrKind (fun _ => false) args = .exit ok) : MrProc lib png d args d (if ok then .done else .fatal)
  | noStl {fl} (h : mrFlags args = some fl) (hs : fl.stl = []) : MrProc lib png d args d .fatal
  | unreadable {fl n ns} (h : mrFlags args = some fl) (hs : fl.stl ≠ []) (hn : split 44 fl.stl = n :: ns)
      (hl : (d n).bind lib.load = none) : MrProc lib png d args d .fatal
  | refused {fl n ns base} (h : mrFlags args = some fl) (hs : fl.stl ≠ []) (hn : split 44 fl.stl = n :: ns)
      (hl : (d n).bind lib.load = some base)
      (hr : layout (lib.bbox base) (boxScale (lib.bbox base)) fl.dim fl.nx fl.ny fl.nz = .err) : MrProc lib png d args d .fatal
  | zero {fl n ns base} (h : mrFlags args = some fl) (hs : fl.stl ≠ []) (hn : split 44 fl.stl = n :: ns)
      (hl : (d n).bind lib.load = some base)
      (hr : layout (lib.bbox base) (boxScale (lib.bbox base)) fl.dim fl.nx fl.ny fl.nz = .panic) : MrProc lib png d args d .panic
  | cut {fl n ns base L d'} (h : mrFlags args = some fl) (hs : fl.stl ≠ []) (hn : split 44 fl.stl = n :: ns)
      (hl : (d n).bind lib.load = some base)
      (hr : layout (lib.bbox base) (boxScale (lib.bbox base)) fl.dim fl.nx fl.ny fl.nz = .ok L)
      (hc : loadSTL lib d ns = none) (hu : ∀ m, (∀ z, m ≠ mrName fl.dim fl.nx fl.ny fl.nz z) → d' m = d m) :
      MrProc lib png d args d' .fatal
  | done {fl n ns base cuts L ok d'} (h : mrFlags args = some fl) (hs : fl.stl ≠ []) (hn : split 44 fl.stl = n :: ns)
      (hl : (d n).bind lib.load = some base)
      (hr : layout (lib.bbox base) (boxScale (lib.bbox base)) fl.dim fl.nx fl.ny fl.nz = .ok L)
      (hc : loadSTL lib d ns = some cuts)
      (hd : MrDone png d fl (mrJobs lib L fl.nx fl.ny fl.nz base cuts) ok d') : MrProc lib png d args d' .done

end
end Mr
end StlDice
