import Verif.Model.Svx
import Verif.Model.SvxRead
import Verif.Model.Commands
import Verif.Model.Flag

/-!
# A network job of stl2svx: stl2svx/stl2svx-client/stl2svx-client.go, stl2svx/stl/stl.go,
# the entry of stl2svx/master/master.go and stl2svx/stl2svx-server/stl2svx-server.go

The goroutines of the master are in Model/Master, the agent's slices in Model/Svx.  Here: what the
client makes of its command line, what the master makes of a request, what the agents are sent and
what the client does with the reply.  Not modelled: grpc itself (a call returns the reply or an error),
the bytes of zip and PNG files (parameters `Codec`), log output.
-/

namespace StlDice
namespace Net
open GoFloat BinVOX Cmd

/-- `strings.Split(s, sep)` for a separator of one byte (library). -/
def split (sep : UInt8) : Bytes → List Bytes
  | [] => [[]]
  | c :: s =>
    if c = sep then [] :: split sep s
    else match split sep s with
      | [] => [[c]]
      | p :: ps => (c :: p) :: ps

/-- `pb.NewJobRequest`; of the files only the positions of the corners are sent,
    stl2svx/stl2svx-client/stl2svx-client.go:54-60, 88-95. -/
structure Request (F : Type) where
  Dim : Int
  NX : Int
  NY : Int
  NZ : Int
  OutPrefix : Bytes
  StlFiles : List (List (Tri (Vec F)))

/-- The parts of the library fauxgl in use: `gl.LoadSTL` on the content of a file (positions), the normal
    `gl.NewTriangleForPoints` computes, and `mesh.BoundingBox`. -/
structure Lib (F : Type) where
  load : Bytes → Option (List (Tri (Vec F)))
  normal : Tri (Vec F) → Vec F
  bbox : List (Tri (Vec F)) → Box F

section
variable {F : Type}

/-- `gl.NewTriangleForPoints(...)`: the corners with the normal of the triangle,
    stl2svx/stl/stl.go:34-37. -/
def Lib.triangle (lib : Lib F) (t : Tri (Vec F)) : Triangle F :=
  ⟨⟨t.V1, lib.normal t⟩, ⟨t.V2, lib.normal t⟩, ⟨t.V3, lib.normal t⟩⟩

/-- The mesh `stl.New` builds, stl2svx/stl/stl.go:32-39: one new triangle for each in the file. -/
def Lib.mesh (lib : Lib F) (ts : List (Tri (Vec F))) : Mesh F where
  heap := fun i => lib.triangle (ts.getD i ⟨lib.bbox [] |>.Min, lib.bbox [] |>.Min, lib.bbox [] |>.Min⟩)
  Triangles := List.range ts.length

/-- `stl.New`, stl2svx/stl/stl.go:31-86: mesh, bounding box and layout. -/
def Lib.stlNew [GoFloat F] (lib : Lib F) (ts : List (Tri (Vec F))) (dim nx ny nz : Int) : Res (Layout F) :=
  layout (lib.bbox ts) (boxScale (lib.bbox ts)) dim nx ny nz

/-- The start of `NewJob`, stl2svx/master/master.go:41-48: `.err` is returned to the client, `.panic` ends
    the master (grpc does not recover from panics). -/
def newJob [GoFloat F] (lib : Lib F) (q : Request F) : Res (SvxReq F) :=
  match q.StlFiles with
  | [] => .err
  | base :: _ =>
    if base = [] then .err
    else match lib.stlNew base q.Dim q.NX q.NY q.NZ with
      | .ok L => .ok ⟨q.Dim, q.NX, q.NY, q.NZ, q.OutPrefix, L, lib.bbox base⟩
      | .err => .err
      | .panic => .panic

/-- `SliceJob` for slice `z` of request `q`, stl2svx/agent/agent.go:57-110: the master sends the request it got,
    stl2svx/master/master.go:84. -/
def Agent [GoFloat F] (lib : Lib F) (q : Request F) (z : Nat) (res : Option Image) : Prop :=
  AgentSliceRun q.Dim q.NX q.NY q.NZ z (q.StlFiles.map fun ts => (lib.mesh ts, lib.bbox ts)) res

/-- What an entry of the archive is made from: the manifest of a job, a black square image, or bytes from an
    agent. -/
inductive Content (F : Type) where
  | manifest (r : SvxReq F)
  | blank (size : Int)
  | raw (b : Bytes)

/-- The content of an entry; `req` are the requests by job, stl2svx/master/master.go:119, 152-158, 167-169. -/
def content (req : Nat → SvxReq F) (e : Entry) : Bytes × Content F :=
  (e.name, match e.data with
    | .manifest => .manifest (req e.owner)
    | .blank => .blank ((req e.owner).Dim + 2)
    | .png b => .raw b)

/-- The libraries image/png and archive/zip: `png` is the file of an 8-bit grey image, `zip` the archive with
    these entries. -/
structure Codec (F : Type) where
  png : Image → Bytes
  zip : List (Bytes × Content F) → Bytes

/-- The name of the client's output, stl2svx/stl2svx-client/stl2svx-client.go:72. -/
def outName (pre : Bytes) (dim nx ny nz : Int) : Bytes :=
  pre ++ ascii "-" ++ fmtInt dim ++ ascii "-" ++ fmtInt nx ++ ascii "-" ++ fmtInt ny ++ ascii "-" ++ fmtInt nz ++ ascii ".svx"

/-- The flags of the client, stl2svx/stl2svx-client/stl2svx-client.go:24-32. -/
structure ClientFlags where
  dim : Int
  nx : Int
  ny : Int
  nz : Int
  stl : Bytes
  pre : Bytes
  master : Bytes

/-- Their declarations, stl2svx/stl2svx-client/stl2svx-client.go:24-32. -/
def clientKind : Bytes → Option Flag.Kind := Flag.table
  [("dim", .int), ("nx", .int), ("ny", .int), ("nz", .int), ("stl", .str), ("prefix", .str), ("master", .str)]

/-- What the client understands of its command line; other arguments are ignored. -/
def clientFlags (args : List Bytes) : Option ClientFlags :=
  match Flag.parse clientKind (fun _ => false) args with
  | .exit _ => none
  | .ok sets _ => some {
      dim := Flag.getInt sets (ascii "dim") 8192
      nx := Flag.getInt sets (ascii "nx") 8
      ny := Flag.getInt sets (ascii "ny") 8
      nz := Flag.getInt sets (ascii "nz") 1
      stl := Flag.getStr sets (ascii "stl")
      pre := (Flag.get sets (ascii "prefix")).getD (ascii "out")
      master := Flag.getStr sets (ascii "master") }

/-- `loadSTL`, stl2svx/stl2svx-client/stl2svx-client.go:80-98: in order, `none` at the first that fails. -/
def loadSTL (lib : Lib F) (d : Disk) : List Bytes → Option (List (List (Tri (Vec F))))
  | [] => some []
  | a :: as =>
    match (d a).bind lib.load with
    | none => none
    | some ts =>
      match loadSTL lib d as with
      | none => none
      | some rest => some (ts :: rest)

/-- The request the client sends, stl2svx/stl2svx-client/stl2svx-client.go:54-64. -/
def clientRequest (fl : ClientFlags) (files : List (List (Tri (Vec F)))) : Request F :=
  ⟨fl.dim, fl.nx, fl.ny, fl.nz, fl.pre, files⟩

/-- `main` of stl2svx-client, stl2svx/stl2svx-client/stl2svx-client.go:34-78: `serve addr q r` says that the call
    of `NewJob` with request `q` at address `addr` may have the outcome `r`: a file, or `none` for an error. -/
inductive ClientProc (lib : Lib F) (serve : Bytes → Request F → Option Bytes → Prop) (d : Disk) (args : List Bytes) :
    Disk → Exit → Prop
  | usage {ok} (h : Flag.parse clientKind (fun _ => false) args = .exit ok) :
      ClientProc lib serve d args d (if ok then .done else .fatal)
  | noStl {fl} (h : clientFlags args = some fl) (hs : fl.stl = []) : ClientProc lib serve d args d .fatal
  | noDial {fl} (h : clientFlags args = some fl) (hs : fl.stl ≠ []) : ClientProc lib serve d args d .fatal
  | unreadable {fl} (h : clientFlags args = some fl) (hs : fl.stl ≠ [])
      (hl : loadSTL lib d (split 44 fl.stl) = none) : ClientProc lib serve d args d .fatal
  | refused {fl files} (h : clientFlags args = some fl) (hs : fl.stl ≠ [])
      (hl : loadSTL lib d (split 44 fl.stl) = some files)
      (hr : serve fl.master (clientRequest fl files) none) : ClientProc lib serve d args d .fatal
  | saved {fl files svx d' ok} (h : clientFlags args = some fl) (hs : fl.stl ≠ [])
      (hl : loadSTL lib d (split 44 fl.stl) = some files)
      (hr : serve fl.master (clientRequest fl files) (some svx))
      (hw : Save d (outName fl.pre fl.dim fl.nx fl.ny fl.nz) svx d' ok) :
      ClientProc lib serve d args d' (if ok then .done else .fatal)

/-- What the rest of the world does to the master: a job starts with what `NewJob` makes of a request (`reqs i`
    is the request of job `i`), and an image comes from an agent that got this request. -/
def Serving [GoFloat F] (lib : Lib F) (codec : Codec F) (reqs : Nat → Request F) (_ : MState F) (l : MLabel F) : Prop :=
  (∀ i r, l = .start i r → newJob lib (reqs i) = .ok r) ∧
  (∀ i z png, l = .sliceOk i z png → ∃ img, Agent lib (reqs i) z (some img) ∧ png = codec.png img)

/-- The outcomes of `NewJob` with request `q`: a master in some reachable state has answered this request; an
    error is always possible (the network).  `P` restricts what may happen to the master.  A reply whose
    archive was not closed is any bytes. -/
inductive Answers [GoFloat F] (lib : Lib F) (codec : Codec F) (P : MState F → MLabel F → Prop) (q : Request F) :
    Option Bytes → Prop
  | error : Answers lib codec P q none
  | archive {reqs : Nat → Request F} {s : MState F} {i : Nat} {J : JobState F} {es : List Entry} {req : Nat → SvxReq F}
      (hs : MReach (fun s l => P s l ∧ Serving lib codec reqs s l) s) (hq : reqs i = q) (hj : s.job i = some J)
      (hreq : ∀ j K, s.job j = some K → req j = K.req)
      (hp : J.phase = .returned (.svx (some es))) :
      Answers lib codec P q (some (codec.zip (es.map (content req))))
  | broken {reqs : Nat → Request F} {s : MState F} {i : Nat} {J : JobState F} {b : Bytes}
      (hs : MReach (fun s l => P s l ∧ Serving lib codec reqs s l) s) (hq : reqs i = q) (hj : s.job i = some J)
      (hp : J.phase = .returned (.svx none)) :
      Answers lib codec P q (some b)

/-! ## The address of an agent -/

/-- A network address of an interface, stl2svx/stl2svx-server/stl2svx-server.go:70-80: `net.IPNet`, `net.IPAddr` or
    another type, with the text of its IP. -/
inductive Addr where
  | ipNet (ip : Bytes)
  | ipAddr (ip : Bytes)
  | other

/-- `!strings.HasPrefix(result, "127.") && !strings.Contains(result, ":")`,
    stl2svx/stl2svx-server/stl2svx-server.go:74. -/
def usable (ip : Bytes) : Bool := (stripPrefix (ascii "127.") ip).isNone && !ip.contains 58

/-- The loops of `getAddress`, stl2svx/stl2svx-server/stl2svx-server.go:61-84, over the addresses of all interfaces whose
    addresses could be listed; `result` is the text so far. -/
def pickAddress (result : Bytes) : List Addr → Bytes
  | [] => result
  | .ipNet ip :: as => if usable ip then ip else pickAddress ip as
  | .ipAddr ip :: as => pickAddress ip as
  | .other :: as => pickAddress result as

/-- `getAddress`, stl2svx/stl2svx-server/stl2svx-server.go:57-85: `ifaces` are the interfaces with their addresses
    (`none`: `i.Addrs()` fails), `listen` is the text of the listening address. -/
def getAddress (listen : Bytes) (ifaces : List (Option (List Addr))) : Bytes :=
  pickAddress [] (ifaces.flatMap fun i => i.getD []) ++ ascii ":" ++ ((split 58 listen).getLast?.getD [])

end

end Net
end StlDice
