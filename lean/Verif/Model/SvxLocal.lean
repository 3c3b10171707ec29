import Verif.Model.SvxNet
import Verif.Model.SvxCli

/-!
# cmd/stl2svx/stl2svx.go from its command line to its file

The slices are those of Model/Svx, the order of the calls on the archive that of Model/SvxCli.  Here: the flags, the
files read, when the program ends and what is on the disk then.  Not modelled: cloud storage (`-bucket`) beyond that
nothing is written locally; log output; the bytes of zip and PNG files (parameters `Codec`).
-/

namespace StlDice
namespace Local
open GoFloat BinVOX Cmd Net

/-- The flags, cmd/stl2svx/stl2svx.go:32-39. -/
structure LocalFlags where
  dim : Int
  nx : Int
  ny : Int
  nz : Int
  stl : Bytes
  bucket : Bytes

/-- Their declarations, cmd/stl2svx/stl2svx.go:32-39. -/
def localKind : Bytes → Option Flag.Kind := Flag.table
  [("dim", .int), ("nx", .int), ("ny", .int), ("nz", .int), ("stl", .str), ("bucket", .str)]

/-- What the program understands of its command line; other arguments are ignored. -/
def localFlags (args : List Bytes) : Option LocalFlags :=
  match Flag.parse localKind (fun _ => false) args with
  | .exit _ => none
  | .ok sets _ => some {
      dim := Flag.getInt sets (ascii "dim") 8192
      nx := Flag.getInt sets (ascii "nx") 8
      ny := Flag.getInt sets (ascii "ny") 8
      nz := Flag.getInt sets (ascii "nz") 1
      stl := Flag.getStr sets (ascii "stl")
      bucket := Flag.getStr sets (ascii "bucket") }

/-- The name of the archive, cmd/stl2svx/stl2svx.go:340. -/
def zipName (dim : Int) : Bytes := ascii "out" ++ fmtInt dim ++ ascii ".svx"

section
variable {F : Type} [GoFloat F]

/-- `gl.LoadSTL(arg)` once the archive `out` may have been created, cmd/stl2svx/stl2svx.go:155: other files are as
    they were on the disk `d`, of that one nothing is known. -/
def Reads (lib : Lib F) (d : Disk) (out name : Bytes) (r : Option (List (Tri (Vec F)))) : Prop :=
  r = (d name).bind lib.load ∨ name = out

/-- The loop over the files, cmd/stl2svx/stl2svx.go:153-159: `none` at the first that cannot be loaded. -/
inductive ReadsAll (lib : Lib F) (d : Disk) (out : Bytes) : List Bytes → Option (List (List (Tri (Vec F)))) → Prop
  | nil : ReadsAll lib d out [] (some [])
  | fatal {n ns} (h : Reads lib d out n none) : ReadsAll lib d out (n :: ns) none
  | cons {n ns ts r} (h : Reads lib d out n (some ts)) (hr : ReadsAll lib d out ns r) :
      ReadsAll lib d out (n :: ns) (r.map (ts :: ·))

/-- `agent(zi)`, cmd/stl2svx/stl2svx.go:107-129 with `generateMR(.., false)`, 142-241: the image of slice `zi`, or
    `none` for the fatal exit (a file that cannot be loaded, or a voxel of another slice).  Only the box of the first
    file is divided. -/
def LocalSlice (lib : Lib F) (d : Disk) (fl : LocalFlags) (zi : Nat) (res : Option Image) : Prop :=
  ∃ files, ReadsAll lib d (zipName fl.dim) (split 44 fl.stl) files ∧
    match files with
    | none => res = none
    | some [] => res = none
    | some (base :: cuts) =>
      match layout (lib.bbox base) (boxScale (lib.bbox base)) fl.dim fl.nx fl.ny fl.nz with
      | .ok L => SliceRun fl.dim zi (svxJobs L (lib.bbox base) fl.nx fl.ny fl.nz
          ((lib.mesh base, lib.bbox base) :: cuts.map fun ts => (lib.mesh ts, lib.bbox ts))) res
      | _ => res = none

/-- The images in the order in which `master` writes them, cmd/stl2svx/stl2svx.go:98-104 and 323-333. -/
def localImages (codec : Codec F) (r : SvxReq F) (img : Nat → Image) : List (Bytes × Content F) :=
  (sliceName r.Dim r.NX r.NY r.NZ 0, .blank (r.Dim + 2)) ::
    ((List.range r.L.dimZ.toNat).map fun z : Nat => (sliceName r.Dim r.NX r.NY r.NZ (z + 1), .raw (codec.png (img z)))) ++
    [(sliceName r.Dim r.NX r.NY r.NZ (r.L.dimZ + 1), .blank (r.Dim + 2))]

/-- The content of an entry of the archive: empty if writing to it failed; `images` are the images by name,
    `r` is the job whose manifest is written, cmd/stl2svx/stl2svx.go:185-193. -/
def localEntry (r : SvxReq F) (images : List (Bytes × Content F)) (e : Bytes × Bool) : Bytes × Content F :=
  (e.1,
    if e.2 then
      if e.1 = ascii "manifest.xml" then .manifest r
      else ((images.find? fun i => i.1 = e.1).map Prod.snd).getD (.raw [])
    else .raw [])

/-- A run that gets to the end, cmd/stl2svx/stl2svx.go:66-76: all slices could be made, the calls on the archive came in
    the order `evs`.  If nothing went wrong with the file (`ok`) it holds the archive as it was when it was closed;
    otherwise it holds anything, and the program does not tell. -/
inductive LocalDone (lib : Lib F) (codec : Codec F) (d : Disk) (fl : LocalFlags) (r : SvxReq F) (evs : List ZEv) : Bool → Disk → Prop
  | ok {img s es} (hi : ∀ z < r.L.dimZ.toNat, LocalSlice lib d fl z (some (img z)))
      (he : CliRun true ((localImages codec r img).map Prod.fst) evs (some s)) (hs : s.final = some es) :
      LocalDone lib codec d fl r evs true (put d (zipName fl.dim) (codec.zip (es.map (localEntry r (localImages codec r img)))))
  | failed {img s p} (hi : ∀ z < r.L.dimZ.toNat, LocalSlice lib d fl z (some (img z)))
      (he : CliRun true ((localImages codec r img).map Prod.fst) evs (some s)) :
      LocalDone lib codec d fl r evs false (put d (zipName fl.dim) p)

/-- `main` of stl2svx, cmd/stl2svx/stl2svx.go:44-76.  A panic is the call on the archive before it was made (or when
    it could not be made), or the division by zero. -/
inductive LocalProc (lib : Lib F) (codec : Codec F) (d : Disk) (args : List Bytes) : Disk → Exit → Prop
  | usage {ok} (h : Flag.parse localKind (fun _ => false) args = .exit ok) :
      LocalProc lib codec d args d (if ok then .done else .fatal)
  | cloud {fl e} (h : localFlags args = some fl) (hb : fl.bucket ≠ []) : LocalProc lib codec d args d e
  | noStl {fl} (h : localFlags args = some fl) (hb : fl.bucket = []) (hs : fl.stl = []) : LocalProc lib codec d args d .panic
  | unreadable {fl n ns} (h : localFlags args = some fl) (hb : fl.bucket = []) (hs : fl.stl ≠ []) (hn : split 44 fl.stl = n :: ns)
      (hl : (d n).bind lib.load = none) : LocalProc lib codec d args d .fatal
  | refused {fl n ns base} (h : localFlags args = some fl) (hb : fl.bucket = []) (hs : fl.stl ≠ [])
      (hn : split 44 fl.stl = n :: ns) (hl : (d n).bind lib.load = some base)
      (hr : layout (lib.bbox base) (boxScale (lib.bbox base)) fl.dim fl.nx fl.ny fl.nz = .err) : LocalProc lib codec d args d .fatal
  | zero {fl n ns base} (h : localFlags args = some fl) (hb : fl.bucket = []) (hs : fl.stl ≠ [])
      (hn : split 44 fl.stl = n :: ns) (hl : (d n).bind lib.load = some base)
      (hr : layout (lib.bbox base) (boxScale (lib.bbox base)) fl.dim fl.nx fl.ny fl.nz = .panic) : LocalProc lib codec d args d .panic
  | early {fl n ns base L created names evs d'} (h : localFlags args = some fl) (hb : fl.bucket = []) (hs : fl.stl ≠ [])
      (hn : split 44 fl.stl = n :: ns) (hl : (d n).bind lib.load = some base)
      (hr : layout (lib.bbox base) (boxScale (lib.bbox base)) fl.dim fl.nx fl.ny fl.nz = .ok L)
      (he : CliRun created (sliceName fl.dim fl.nx fl.ny fl.nz 0 :: names) evs none)
      (hd : d' = d ∨ created = true ∧ d' = put d (zipName fl.dim) []) : LocalProc lib codec d args d' .panic
  | fatal {fl n ns base L z p} (h : localFlags args = some fl) (hb : fl.bucket = []) (hs : fl.stl ≠ [])
      (hn : split 44 fl.stl = n :: ns) (hl : (d n).bind lib.load = some base)
      (hr : layout (lib.bbox base) (boxScale (lib.bbox base)) fl.dim fl.nx fl.ny fl.nz = .ok L)
      (hz : z < L.dimZ.toNat) (hi : ∀ k < z, ∃ img, LocalSlice lib d fl k (some img)) (hf : LocalSlice lib d fl z none) :
      LocalProc lib codec d args (put d (zipName fl.dim) p) .fatal
  | done {fl n ns base L evs ok d'} (h : localFlags args = some fl) (hb : fl.bucket = []) (hs : fl.stl ≠ [])
      (hn : split 44 fl.stl = n :: ns) (hl : (d n).bind lib.load = some base)
      (hr : layout (lib.bbox base) (boxScale (lib.bbox base)) fl.dim fl.nx fl.ny fl.nz = .ok L)
      (hd : LocalDone lib codec d fl ⟨fl.dim, fl.nx, fl.ny, fl.nz, ascii "out", L, lib.bbox base⟩ evs ok d') :
      LocalProc lib codec d args d' .done

end
end Local
end StlDice
