import Verif.Model.SvxLocal

/-! # The three goroutines that compute a slice

stl2svx/agent/agent.go:57-232 (`SliceJob`) and cmd/stl2svx/stl2svx.go:107-289 (`agent`): a generator goroutine hands the
jobs over an unbuffered channel to the calling goroutine, which voxelizes them one after the other and sends the voxels
over a buffered channel to the imager goroutine.  `Model/Svx` describes what comes out if the three simply ran one after
the other; here they interleave. -/

namespace StlDice
open GoFloat BinVOX

/-- Where the calling goroutine is, stl2svx/agent/agent.go:73-77, 152-183. -/
inductive PipeMain (F : Type) where
  /-- `for bv := range ch`, stl2svx/agent/agent.go:73 -/
  | waiting
  /-- in `bv.VoxelizeZ`, stl2svx/agent/agent.go:154 -/
  | voxelizing (j : BvInfo F)
  /-- in the loops over the voxels, stl2svx/agent/agent.go:177-182: the keys still to come -/
  | keys (j : BvInfo F) (ks : List Key)
  /-- after `close(vxCh)`, in `wg.Wait()`, stl2svx/agent/agent.go:76-77 -/
  | closed

/-- The state of the three goroutines and the two channels. -/
structure Pipe (F : Type) where
  /-- the jobs the generator still has to send -/
  gen : List (BvInfo F)
  /-- `close(ch)`, stl2svx/agent/agent.go:140 -/
  genClosed : Bool
  main : PipeMain F
  /-- `vxCh` -/
  buf : List VoxelInfo
  /-- what the imager received -/
  got : List VoxelInfo
  /-- `none`: still at work; `some none`: the process has exited; `some (some img)`: the image -/
  out : Option (Option Image)

/-- At the start. -/
def Pipe.init {F : Type} (jobs : List (BvInfo F)) : Pipe F := ⟨jobs, false, .waiting, [], [], none⟩

/-- One step of some goroutine.  `cap` is the capacity of `vxCh` (1000); `genFatal` says that the generator meets a file
    that is fatal after it has sent its jobs. -/
inductive PipeStep {F : Type} [GoFloat F] (dim zi : Int) (genFatal : Bool) (cap : Nat) : Pipe F → Pipe F → Prop
  /-- `ch <- mapIn` meets `range ch`, stl2svx/agent/agent.go:134 and 73 -/
  | handOver {s : Pipe F} {j js} (ho : s.out = none) (hg : s.gen = j :: js) (hm : s.main = .waiting) :
      PipeStep dim zi genFatal cap s { s with gen := js, main := .voxelizing j }
  /-- `log.Fatalf("stl.New: …")`, stl2svx/agent/agent.go:106 -/
  | genDies {s : Pipe F} (ho : s.out = none) (hg : s.gen = []) (hf : genFatal = true) :
      PipeStep dim zi genFatal cap s { s with out := some none }
  /-- `close(ch)`, stl2svx/agent/agent.go:140 -/
  | genCloses {s : Pipe F} (ho : s.out = none) (hg : s.gen = []) (hf : genFatal = false) (hc : s.genClosed = false) :
      PipeStep dim zi genFatal cap s { s with genClosed := true }
  /-- `VoxelizeZ` returns a model; its keys come in some order, stl2svx/agent/agent.go:154, 177-182 -/
  | voxelized {s : Pipe F} {j b' ord} (ho : s.out = none) (hm : s.main = .voxelizing j)
      (hv : VoxelizeZRun j.bv j.mesh zi (.ok b')) (hp : ord.Perm (b'.white.keys ++ b'.color.keys)) :
      PipeStep dim zi genFatal cap s { s with main := .keys j ord }
  /-- `VoxelizeZ` returns an error, which is logged, stl2svx/agent/agent.go:154-157 -/
  | voxelizeFailed {s : Pipe F} {j out} (ho : s.out = none) (hm : s.main = .voxelizing j)
      (hv : VoxelizeZRun j.bv j.mesh zi out) (hn : ∀ b', out ≠ .ok b') :
      PipeStep dim zi genFatal cap s { s with main := .waiting }
  /-- `log.Fatalf("… does not match …")`, stl2svx/agent/agent.go:169-171 -/
  | keyFatal {s : Pipe F} {j k ks} (ho : s.out = none) (hm : s.main = .keys j (k :: ks))
      (hk : zi ≠ (k.shift j.dx j.dy j.dz).Z) : PipeStep dim zi genFatal cap s { s with out := some none }
  /-- a negative key, stl2svx/agent/agent.go:172-174 -/
  | keySkipped {s : Pipe F} {j k ks} (ho : s.out = none) (hm : s.main = .keys j (k :: ks))
      (hk : zi = (k.shift j.dx j.dy j.dz).Z)
      (hn : (k.shift j.dx j.dy j.dz).X < 0 ∨ (k.shift j.dx j.dy j.dz).Y < 0 ∨ (k.shift j.dx j.dy j.dz).Z < 0) :
      PipeStep dim zi genFatal cap s { s with main := .keys j ks }
  /-- `ch <- voxelInfo{…}` while there is room, stl2svx/agent/agent.go:175 -/
  | keySent {s : Pipe F} {j k ks} (ho : s.out = none) (hm : s.main = .keys j (k :: ks))
      (hk : zi = (k.shift j.dx j.dy j.dz).Z)
      (hn : ¬ ((k.shift j.dx j.dy j.dz).X < 0 ∨ (k.shift j.dx j.dy j.dz).Y < 0 ∨ (k.shift j.dx j.dy j.dz).Z < 0))
      (hb : s.buf.length < cap) :
      PipeStep dim zi genFatal cap s
        { s with main := .keys j ks, buf := s.buf ++ [⟨(k.shift j.dx j.dy j.dz).X, (k.shift j.dx j.dy j.dz).Y, j.base⟩] }
  /-- `voxelize` returns, stl2svx/agent/agent.go:183 -/
  | jobDone {s : Pipe F} {j} (ho : s.out = none) (hm : s.main = .keys j []) :
      PipeStep dim zi genFatal cap s { s with main := .waiting }
  /-- `range ch` ends, `close(vxCh)`, stl2svx/agent/agent.go:73-76 -/
  | mainCloses {s : Pipe F} (ho : s.out = none) (hm : s.main = .waiting) (hg : s.gen = []) (hc : s.genClosed = true) :
      PipeStep dim zi genFatal cap s { s with main := .closed }
  /-- `for value := range ch` in the imager, stl2svx/agent/agent.go:197 -/
  | received {s : Pipe F} {v vs} (ho : s.out = none) (hb : s.buf = v :: vs) :
      PipeStep dim zi genFatal cap s { s with buf := vs, got := s.got ++ [v] }
  /-- the channel is closed and empty: the imager makes the image, `wg.Done()`, and `SliceJob` returns,
      stl2svx/agent/agent.go:69-71, 77-84, 208-231 -/
  | imaged {s : Pipe F} {img} (ho : s.out = none) (hm : s.main = .closed) (hb : s.buf = [])
      (hi : ImagerRun dim s.got img) : PipeStep dim zi genFatal cap s { s with out := some (some img) }

/-- Any number of steps. -/
inductive PipeReach {F : Type} [GoFloat F] (dim zi : Int) (genFatal : Bool) (cap : Nat) : Pipe F → Pipe F → Prop
  | refl {s} : PipeReach dim zi genFatal cap s s
  | step {s t u} (h : PipeReach dim zi genFatal cap s t) (hs : PipeStep dim zi genFatal cap t u) :
      PipeReach dim zi genFatal cap s u

/-- The jobs of the files after the first, up to the first one that is fatal; whether there is such a one,
    stl2svx/agent/agent.go:103-139. -/
def cutPlan {F : Type} [GoFloat F] (L : Layout F) (mbb : Box F) (dim nx ny nz : Int) :
    List (Mesh F × Box F) → List (BvInfo F) × Bool
  | [] => ([], false)
  | c :: cs =>
    match layout c.2 (boxScale c.2) dim nx ny nz with
    | .ok _ => (fileJobs L mbb nx ny nz false c.1 ++ (cutPlan L mbb dim nx ny nz cs).1, (cutPlan L mbb dim nx ny nz cs).2)
    | _ => ([], true)

/-- `generateMR`, stl2svx/agent/agent.go:98-143: the jobs it sends before it ends, and whether a file is fatal. -/
def genPlan {F : Type} [GoFloat F] (dim nx ny nz : Int) : List (Mesh F × Box F) → List (BvInfo F) × Bool
  | [] => ([], false)
  | base :: cuts =>
    match layout base.2 (boxScale base.2) dim nx ny nz with
    | .ok L => (fileJobs L base.2 nx ny nz true base.1 ++ (cutPlan L base.2 dim nx ny nz cuts).1, (cutPlan L base.2 dim nx ny nz cuts).2)
    | _ => ([], true)

namespace Local
open Cmd Net
variable {F : Type} [GoFloat F]

/-- The jobs of the files after the first, given what reading each of them gives, cmd/stl2svx/stl2svx.go:153-236; a file
    that cannot be loaded is fatal. -/
def cutPlan (lib : Lib F) (L : Layout F) (mbb : Box F) (fl : LocalFlags) : List (Option (List (Tri (Vec F)))) → List (BvInfo F) × Bool
  | [] => ([], false)
  | none :: _ => ([], true)
  | some ts :: rs => (fileJobs L mbb fl.nx fl.ny fl.nz false (lib.mesh ts) ++ (cutPlan lib L mbb fl rs).1, (cutPlan lib L mbb fl rs).2)

/-- `generateMR(.., false)` of the command, cmd/stl2svx/stl2svx.go:142-241: the jobs it sends and whether it is fatal. -/
def genPlan (lib : Lib F) (fl : LocalFlags) : List (Option (List (Tri (Vec F)))) → List (BvInfo F) × Bool
  | [] => ([], false)
  | none :: _ => ([], true)
  | some base :: rs =>
    match layout (lib.bbox base) (boxScale (lib.bbox base)) fl.dim fl.nx fl.ny fl.nz with
    | .ok L => (fileJobs L (lib.bbox base) fl.nx fl.ny fl.nz true (lib.mesh base) ++ (cutPlan lib L (lib.bbox base) fl rs).1,
        (cutPlan lib L (lib.bbox base) fl rs).2)
    | _ => ([], true)

end Local
end StlDice
