import Verif.Model.Dice

/-!
# The stl2svx master: stl2svx/master/master.go

The goroutines of the master (one per `NewJob` call, one per slice, one per `RegisterAgent` call) are
modelled as a transition system: each step is one critical section or one remote call.  Any number
of jobs and registrations may be interleaved.  `m.zipFile` is one field shared by all jobs, as in the
code; the zip writer created by job `i` is called writer `i`.  Not modelled: the bytes of the zip
format, log output, `grpc` itself (a call returns a reply or an error; the reply is data).
-/

namespace StlDice

/-- The fields of `NewJobRequest` used by the master, and what `stl.New` computed from its first file
    (stl2svx/master/master.go:41-48). -/
structure SvxReq (F : Type) where
  Dim : Int
  NX : Int
  NY : Int
  NZ : Int
  OutPrefix : Bytes
  L : Layout F
  MBB : BinVOX.Box F

/-- `fmt.Sprintf("%v/out-%v-%v-%v-%v-%04d.png", ...)`, stl2svx/master/master.go:110, 179, 180 and
    cmd/stl2svx/stl2svx.go:98, 104, 323. -/
def sliceName (dim nx ny nz i : Int) : Bytes :=
  fmtInt dim ++ ascii "/out-" ++ fmtInt dim ++ ascii "-" ++ fmtInt nx ++ ascii "-" ++ fmtInt ny ++
    ascii "-" ++ fmtInt nz ++ ascii "-" ++ padInt 4 i ++ ascii ".png"

/-- The name the manifest's `slices` attribute stands for with the number `i` in place of `%04d`,
    stl2svx/master/master.go:155-158 (`"%v/%v-%v-%v-%v-%v-%%04d.png"`). -/
def manifestName (dim : Int) (outPrefix : Bytes) (nx ny nz i : Int) : Bytes :=
  fmtInt dim ++ ascii "/" ++ outPrefix ++ ascii "-" ++ fmtInt dim ++ ascii "-" ++ fmtInt nx ++ ascii "-" ++
    fmtInt ny ++ ascii "-" ++ fmtInt nz ++ ascii "-" ++ padInt 4 i ++ ascii ".png"

/-- The attributes of the manifest, stl2svx/master/master.go:152-158. -/
structure Manifest (F : Type) where
  gridSizeX : Int
  gridSizeY : Int
  gridSizeZ : Int
  voxelSize : F
  originX : F
  originY : F
  originZ : F
  slices : Int → Bytes

/-- `writeManifest`, stl2svx/master/master.go:143-160. -/
def manifestOf {F : Type} [GoFloat F] (r : SvxReq F) : Manifest F where
  gridSizeX := r.L.modelX + 2
  gridSizeY := r.L.modelZ + 2
  gridSizeZ := r.L.modelY + 2
  voxelSize := GoFloat.mul r.L.mmpv (GoFloat.lit (1 / 1000 : ℚ))
  originX := r.MBB.Min.X
  originY := r.MBB.Min.Z
  originZ := r.MBB.Min.Y
  slices := manifestName r.Dim r.OutPrefix r.NX r.NY r.NZ

/-- What a zip entry contains: the manifest, a black image, or the PNG an agent returned. -/
inductive EntryData
  | manifest
  | blank
  | png (b : Bytes)
deriving DecidableEq

/-- An entry of a zip file; `owner` is the job that wrote it. -/
structure Entry where
  owner : Nat
  name : Bytes
  data : EntryData
deriving DecidableEq

/-- One `runAgent` goroutine, stl2svx/master/master.go:82-123. -/
inductive Task
  | waiting
  | busy (a : Bytes)
  | writing (png : Bytes)
  | done (png : Bytes)
  | dropped
deriving DecidableEq

/-- What `NewJob` returns: an error, or the bytes of the job's own buffer: a readable zip with the
    given entries if the job's own writer was closed before (`some`), an unreadable one otherwise. -/
inductive Reply
  | err
  | svx (zip : Option (List Entry))
deriving DecidableEq

/-- Where a `NewJob` call is, stl2svx/master/master.go:50-70. -/
inductive JobPhase
  | opened
  | manifest
  | running
  | returned (r : Reply)
deriving DecidableEq

/-- A `NewJob` call. -/
structure JobState (F : Type) where
  req : SvxReq F
  phase : JobPhase
  task : Nat → Task

/-- The number of slices, stl2svx/master/master.go:56. -/
def JobState.n {F : Type} (J : JobState F) : Nat := J.req.L.dimZ.toNat

/-- The state of the master, stl2svx/master/master.go:27-34, with the writers and calls in progress. -/
structure MState (F : Type) where
  idle : Bytes → Bool
  cur : Option Nat
  zip : Nat → List Entry
  final : Nat → Option (List Entry)
  job : Nat → Option (JobState F)

/-- `New`, stl2svx/master/master.go:36-38. -/
def MState.init {F : Type} : MState F where
  idle := fun _ => false
  cur := none
  zip := fun _ => []
  final := fun _ => none
  job := fun _ => none

/-- Replacing one value of a function. -/
def upd {α β : Type} [DecidableEq α] (f : α → β) (a : α) (b : β) : α → β :=
  fun x => if x = a then b else f x

/-- The job with task `z` replaced. -/
def JobState.setTask {F : Type} (J : JobState F) (z : Nat) (t : Task) : JobState F :=
  { J with task := upd J.task z t }

/-- What happens in a step. -/
inductive MLabel (F : Type)
  | register (a : Bytes)
  | start (i : Nat) (r : SvxReq F)
  | manifest (i : Nat)
  | blanks (i : Nat)
  | take (i z : Nat) (a : Bytes)
  | dialErr (i z : Nat)
  | sliceOk (i z : Nat) (png : Bytes)
  | sliceErr (i z : Nat)
  | write (i z : Nat)
  | finish (i : Nat)

/-- The entry for the manifest, stl2svx/master/master.go:144. -/
def manifestEntry (i : Nat) : Entry := ⟨i, ascii "manifest.xml", .manifest⟩

/-- A black image, stl2svx/master/master.go:169-180. -/
def blankEntry {F : Type} (i : Nat) (r : SvxReq F) (z : Int) : Entry :=
  ⟨i, sliceName r.Dim r.NX r.NY r.NZ z, .blank⟩

/-- The image of slice `z`, stl2svx/master/master.go:110-122. -/
def sliceEntry {F : Type} (i : Nat) (r : SvxReq F) (z : Nat) (png : Bytes) : Entry :=
  ⟨i, sliceName r.Dim r.NX r.NY r.NZ (z + 1), .png png⟩

/-- One step of the master. -/
inductive MStep {F : Type} : MState F → MLabel F → MState F → Prop
  /-- `RegisterAgent`, stl2svx/master/master.go:73-80. -/
  | register (s : MState F) (a : Bytes) :
      MStep s (.register a) { s with idle := upd s.idle a true }
  /-- `NewJob` up to `m.zipFile = zip.NewWriter(&zbuf)`, stl2svx/master/master.go:40-50. -/
  | start (s : MState F) (i : Nat) (r : SvxReq F) (h : s.job i = none) :
      MStep s (.start i r)
        { s with cur := some i, job := upd s.job i (some ⟨r, .opened, fun _ => .waiting⟩) }
  /-- `m.writeManifest(in, base)`, stl2svx/master/master.go:52. -/
  | manifest (s : MState F) (i w : Nat) (J : JobState F) (h : s.job i = some J) (hp : J.phase = .opened)
      (hw : s.cur = some w) :
      MStep s (.manifest i)
        { s with zip := upd s.zip w (s.zip w ++ [manifestEntry i]),
                 job := upd s.job i (some { J with phase := .manifest }) }
  /-- `m.writeBlankImages(in, base)` and the start of the goroutines, stl2svx/master/master.go:53-62. -/
  | blanks (s : MState F) (i w : Nat) (J : JobState F) (h : s.job i = some J) (hp : J.phase = .manifest)
      (hw : s.cur = some w) :
      MStep s (.blanks i)
        { s with zip := upd s.zip w (s.zip w ++ [blankEntry i J.req 0, blankEntry i J.req (J.req.L.dimZ + 1)]),
                 job := upd s.job i (some { J with phase := .running }) }
  /-- `getIdleAgent` finds an agent, stl2svx/master/master.go:126-141. -/
  | take (s : MState F) (i z : Nat) (a : Bytes) (J : JobState F) (h : s.job i = some J)
      (hp : J.phase = .running) (hz : z < J.n) (ht : J.task z = .waiting) (ha : s.idle a = true) :
      MStep s (.take i z a)
        { s with idle := upd s.idle a false, job := upd s.job i (some (J.setTask z (.busy a))) }
  /-- `grpc.Dial` fails, stl2svx/master/master.go:91-95. -/
  | dialErr (s : MState F) (i z : Nat) (a : Bytes) (J : JobState F) (h : s.job i = some J)
      (ht : J.task z = .busy a) :
      MStep s (.dialErr i z) { s with job := upd s.job i (some (J.setTask z .waiting)) }
  /-- `SliceJob` returns an image, stl2svx/master/master.go:100, 105-107. -/
  | sliceOk (s : MState F) (i z : Nat) (a png : Bytes) (J : JobState F) (h : s.job i = some J)
      (ht : J.task z = .busy a) :
      MStep s (.sliceOk i z png)
        { s with idle := upd s.idle a true, job := upd s.job i (some (J.setTask z (.writing png))) }
  /-- `SliceJob` fails, stl2svx/master/master.go:101-104. -/
  | sliceErr (s : MState F) (i z : Nat) (a : Bytes) (J : JobState F) (h : s.job i = some J)
      (ht : J.task z = .busy a) :
      MStep s (.sliceErr i z) { s with job := upd s.job i (some (J.setTask z .dropped)) }
  /-- Writing the PNG, stl2svx/master/master.go:113-122. -/
  | write (s : MState F) (i z w : Nat) (png : Bytes) (J : JobState F) (h : s.job i = some J)
      (ht : J.task z = .writing png) (hw : s.cur = some w) :
      MStep s (.write i z)
        { s with zip := upd s.zip w (s.zip w ++ [sliceEntry i J.req z png]),
                 job := upd s.job i (some (J.setTask z (.done png))) }
  /-- `wg.Wait()`, `m.zipFile.Close()` and the return, stl2svx/master/master.go:63-70.  Closing a writer
      twice is an error (archive/zip). -/
  | finish (s : MState F) (i w : Nat) (J : JobState F) (h : s.job i = some J) (hp : J.phase = .running)
      (hall : ∀ z < J.n, J.task z = .dropped ∨ ∃ png, J.task z = .done png) (hw : s.cur = some w) :
      MStep s (.finish i)
        { s with
          final := if (s.final w).isSome then s.final else upd s.final w (some (s.zip w)),
          job := upd s.job i (some { J with
            phase := .returned (if (s.final w).isSome then .err
              else .svx (upd s.final w (some (s.zip w)) i)) }) }

/-- The states the master can reach when the environment keeps to `P`. -/
inductive MReach {F : Type} (P : MState F → MLabel F → Prop) : MState F → Prop
  | init : MReach P .init
  | step {s s' : MState F} {l : MLabel F} (h : MReach P s) (hp : P s l) (hs : MStep s l s') : MReach P s'

/-- The states reachable from `s` when the environment keeps to `P`. -/
inductive MPath {F : Type} (P : MState F → MLabel F → Prop) (s : MState F) : MState F → Prop
  | refl : MPath P s s
  | step {t t' : MState F} {l : MLabel F} (h : MPath P s t) (hp : P t l) (hs : MStep t l t') : MPath P s t'

end StlDice
