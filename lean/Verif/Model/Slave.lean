import Verif.Model.BinVoxIO
import Verif.Model.StlText
import Verif.Spec.StlText

/-!
# The gRPC server `stldice-slave` (server/stldice-slave/stldice-slave.go)

The server handles requests concurrently; the only shared state are the files in its directory.  Each
handler is split into its disk accesses; the parts between them are atomic (they are local).  Reading a file is
opening it and then any number of reads, each handler at its own offset: a read that overlaps a save can see the
beginning of the old file and the end of the new one.  Writing one is creating (emptying) it and
then any number of writes, each handler at its own offset: two handlers that save to one file at the same time write
over each other.  Files are never removed.
A panic in a handler ends the process (gRPC does not recover); it can then be started again.
-/

namespace StlDice
namespace Slave

/-- `pb.VoxelRegion`, stldice/stldice.proto:20-34. -/
structure VoxelRegion (F : Type) where
  llx : F
  lly : F
  llz : F
  urx : F
  ury : F
  urz : F
  nx : Int
  ny : Int
  nz : Int

/-- `filename`, stldice-slave.go:142-147; `fmtV` is `%v` of a float64. -/
def filename {F : Type} (fmtV : F → Bytes) (r : VoxelRegion F) : Bytes :=
  ascii "model" ++ ascii "-" ++ fmtV r.llx ++ ascii "-" ++ fmtV r.lly ++ ascii "-" ++ fmtV r.llz ++ ascii "-" ++
    fmtV r.urx ++ ascii "-" ++ fmtV r.ury ++ ascii "-" ++ fmtV r.urz ++ ascii "-" ++
    fmtInt r.nx ++ ascii "-" ++ fmtInt r.ny ++ ascii "-" ++ fmtInt r.nz ++ ascii ".binvox"

/-- A request of a client; the STL data is what it sends. -/
inductive Request (F : Type) where
  | add (region : VoxelRegion F) (stl : Bytes)
  | sub (region : VoxelRegion F) (stl : Bytes)
  | get (region : VoxelRegion F)

/-- The region of a request. -/
def Request.region {F : Type} : Request F → VoxelRegion F
  | .add r _ => r
  | .sub r _ => r
  | .get r => r

/-- What the client is sent: an error, or a reply with its `stl_file` (only `GetSTLMesh` has one). -/
inductive Reply where
  | error
  | ok (stlFile : Bytes)

/-- The disk access a handler still has to do. -/
inductive Pending (F : Type) where
  /-- `binvox.Read(modelFilename, …)` after `os.Open`, with these bytes read, stldice-slave.go:46, 68, 96 -/
  | reading (got : Bytes)
  /-- `mesh.SaveSTL(modelFilename)`, stldice-slave.go:48 -/
  | save (mesh : List (Tri (BinVOX.Vec F)))
  /-- the same after `os.Create`, with `pos` bytes written -/
  | saving (mesh : List (Tri (BinVOX.Vec F))) (pos : Nat)
  /-- `newBase.Write(modelFilename, …)` with `newBase == nil`, stldice-slave.go:56-57, 84-85 -/
  | writeNil

/-- The whole state: the files, the handlers under way, the replies sent so far (latest first), and
    whether the process has died. -/
structure State (F : Type) where
  disk : Bytes → Option Bytes
  running : List (Request F × Pending F)
  replies : List (Request F × Reply)
  dead : Bool

/-- The parameters: number formats and conversions (Go standard library and fauxgl). -/
structure Env (F : Type) where
  fmtV : F → Bytes
  f32 : Nat → F
  parseF : Bytes → F
  bits : F → Nat
  normal : Tri (BinVOX.Vec F) → BinVOX.Vec F

/-- What `gl.Mesh.SaveSTL` (library) writes: a binary STL file with a header of 80 zero bytes. -/
def Env.stlFile {F : Type} (env : Env F) (ts : List (Tri (BinVOX.Vec F))) : Bytes :=
  Spec.stlBinary (List.replicate 80 0) env.bits env.normal (fun _ => (0, 0)) ts

/-- A file that is read while nobody changes it. -/
def whole (disk : Bytes → Option Bytes) (name : Bytes) : Option Input := (disk name).map fun b => ⟨b, true⟩

/-- `binvox.Read(modelFilename, 0, 0, 0, 0, 0, 0)` of a file that nobody changes, stldice-slave.go:46, 68, 96. -/
def readModel {F : Type} [FloatText F] (disk : Bytes → Option Bytes) (name : Bytes) : Option (BinVOX F) :=
  BinVOX.Read (whole disk name) ⟨0, 0, 0, 0, 0, 0⟩

/-- Change one file. -/
def setFile (disk : Bytes → Option Bytes) (name b : Bytes) : Bytes → Option Bytes :=
  fun n => if n = name then some b else disk n

/-- Writing `c` at the offset `pos` of a file that holds `b` (a gap is filled with zeros). -/
def writeAt (b : Bytes) (pos : Nat) (c : Bytes) : Bytes :=
  b.take pos ++ List.replicate (pos - b.length) 0 ++ c ++ b.drop (pos + c.length)

section
variable {F : Type} [FloatText F]

/-- The name of the file a request is about. -/
def Request.file (env : Env F) (q : Request F) : Bytes := filename env.fmtV q.region

/-- Answer a request. -/
def State.answer (s : State F) (q : Request F) (r : Reply) : State F := { s with replies := (q, r) :: s.replies }

/-- Start the last disk access of a request. -/
def State.later (s : State F) (q : Request F) (p : Pending F) : State F := { s with running := (q, p) :: s.running }

/-- The process dies. -/
def State.die (s : State F) : State F := { s with running := [], dead := true }

/-- A request up to its last disk access, where reading the model gave `inp` (`none`: it cannot be opened),
    stldice-slave.go:33-46, 55-57 (`AddSTLMesh`), 64-85
    (`SubSTLMesh`), 93-128 (`GetSTLMesh`).  `voxelize` (:221-224) always returns nil, nil and `voxelOp`
    (:227-229) nil.  `GetSTLMesh` builds the mesh and encodes it into a buffer that is then dropped. -/
def handleRead (env : Env F) (s : State F) (q : Request F) (inp : Option Input) : State F :=
  match q with
  | .add _ stl =>
    match StlText.stlToMesh env.f32 env.parseF stl with
    | .panic => s.die
    | .err => s.answer q .error
    | .ok mesh =>
      match BinVOX.Read (F := F) inp ⟨0, 0, 0, 0, 0, 0⟩ with
      | none => s.later q (.save mesh)
      | some _ => s.later q .writeNil
  | .sub _ stl =>
    match BinVOX.Read (F := F) inp ⟨0, 0, 0, 0, 0, 0⟩ with
    | none => s.answer q .error
    | some _ =>
      match StlText.stlToMesh env.f32 env.parseF stl with
      | .panic => s.die
      | .err => s.answer q .error
      | .ok _ => s.later q .writeNil
  | .get _ =>
    match BinVOX.Read (F := F) inp ⟨0, 0, 0, 0, 0, 0⟩ with
    | none => s.answer q .error
    | some _ => s.answer q (.ok [])

/-- The same when the read sees the file as it is at one moment. -/
def handle (env : Env F) (s : State F) (q : Request F) : State F := handleRead env s q (whole s.disk (q.file env))

/-- A request arrives. -/
inductive Arrive (env : Env F) (s : State F) (q : Request F) : State F → Prop
  /-- It runs up to its last disk access; nobody changes the file while it is read. -/
  | atOnce : Arrive env s q (handle env s q)
  /-- The model cannot be opened, binvox/read.go:24-27. -/
  | unopened : Arrive env s q (handleRead env s q none)
  /-- The model is opened, stldice-slave.go:46, 68, 96, binvox/read.go:24; `AddSTLMesh` has parsed its data before,
      stldice-slave.go:34-42. -/
  | opened {b} (hb : s.disk (q.file env) = some b)
      (hq : ∀ r stl, q = .add r stl → ∃ mesh, StlText.stlToMesh env.f32 env.parseF stl = .ok mesh) :
      Arrive env s q (s.later q (.reading []))

/-- One step of the server. -/
inductive Step (env : Env F) : State F → State F → Prop
  /-- A request arrives. -/
  | request {s t : State F} (q : Request F) (h : s.dead = false) (ha : Arrive env s q t) : Step env s t
  /-- A reader reads the next bytes (up to `n`) from its offset of the file as it is now. -/
  | read {s : State F} {pre post q got b} (n : Nat) (h : s.dead = false)
      (hr : s.running = pre ++ (q, Pending.reading got) :: post) (hb : s.disk (q.file env) = some b) :
      Step env s { s with running := pre ++ (q, Pending.reading (got ++ (b.drop got.length).take n)) :: post }
  /-- A reader is at the end of the file as it is now, or its read fails (`clean = false`); the handler goes on. -/
  | readEnd {s : State F} {pre post q got b} (clean : Bool) (h : s.dead = false)
      (hr : s.running = pre ++ (q, Pending.reading got) :: post) (hb : s.disk (q.file env) = some b)
      (he : clean = true → b.length ≤ got.length) :
      Step env s (handleRead env { s with running := pre ++ post } q (some ⟨got, clean⟩))
  /-- `SaveSTL` creates its file, which empties an old one. -/
  | created {s : State F} {pre post q mesh} (h : s.dead = false) (hr : s.running = pre ++ (q, Pending.save mesh) :: post) :
      Step env s { s with running := pre ++ (q, Pending.saving mesh 0) :: post, disk := setFile s.disk (q.file env) [] }
  /-- `SaveSTL` writes the next `n` bytes. -/
  | wrote {s : State F} {pre post q mesh pos b} (n : Nat) (h : s.dead = false)
      (hr : s.running = pre ++ (q, Pending.saving mesh pos) :: post) (hb : s.disk (q.file env) = some b)
      (h0 : 0 < n) (hn : pos + n ≤ (env.stlFile mesh).length) :
      Step env s { s with running := pre ++ (q, Pending.saving mesh (pos + n)) :: post,
                          disk := setFile s.disk (q.file env) (writeAt b pos (((env.stlFile mesh).drop pos).take n)) }
  /-- `SaveSTL` succeeds: everything is written. -/
  | saved {s : State F} {pre post q mesh} (h : s.dead = false)
      (hr : s.running = pre ++ (q, Pending.saving mesh (env.stlFile mesh).length) :: post) :
      Step env s (({ s with running := pre ++ post } : State F).answer q (.ok []))
  /-- `SaveSTL` cannot create the file. -/
  | notCreated {s : State F} {pre post q mesh} (h : s.dead = false)
      (hr : s.running = pre ++ (q, Pending.save mesh) :: post) :
      Step env s (({ s with running := pre ++ post } : State F).answer q .error)
  /-- `SaveSTL` fails to write; what it has written stays. -/
  | saveFailed {s : State F} {pre post q mesh pos} (h : s.dead = false)
      (hr : s.running = pre ++ (q, Pending.saving mesh pos) :: post) :
      Step env s (({ s with running := pre ++ post } : State F).answer q .error)
  /-- `Write` of the nil model: `os.Create` empties the file, then the nil pointer is dereferenced,
      binvox/write.go:17, 21, 41. -/
  | wroteNil {s : State F} {q} (h : s.dead = false) (hr : (q, Pending.writeNil) ∈ s.running) :
      Step env s { s with disk := setFile s.disk (q.file env) [] }.die
  /-- `Write` of the nil model: `os.Create` fails, binvox/write.go:18-20. -/
  | createFailed {s : State F} {pre post q} (h : s.dead = false)
      (hr : s.running = pre ++ (q, Pending.writeNil) :: post) :
      Step env s (({ s with running := pre ++ post } : State F).answer q .error)
  /-- The process is started again, on the same disk. -/
  | restart {s : State F} (h : s.dead = true) : Step env s { s with dead := false }

/-- Any number of steps, with the process killed from outside any number of times at any point. -/
inductive Reach (env : Env F) : State F → State F → Prop
  | refl {s} : Reach env s s
  | step {s t u} : Reach env s t → Step env t u → Reach env s u
  | killed {s t} : Reach env s t → Reach env s t.die

/-- A server just started on a disk. -/
def start (disk : Bytes → Option Bytes) : State F := ⟨disk, [], [], false⟩

end
end Slave
end StlDice
