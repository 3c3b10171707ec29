import Verif.Model.SvxNet

/-!
# The requests of stl2svx as they come off the wire

A client need not be stl2svx-client: every message of stl2svx/proto/stl2svx.proto may arrive.  In a proto3 message the
corners of a triangle are messages and may be absent (nil); absent numbers are 0, an absent list is empty, and an absent
`new_job_request` reads as the request with nothing in it (the generated getters return zero values for nil).  The
elements of a repeated field are never nil.  `t.V1.X` for an absent corner is a nil dereference: Go panics, and grpc does not recover
from panics, nor does anything recover in the goroutine of `generateMR`, so the process ends.  Not modelled: running out of
memory (`image.NewGray` of an enormous size), grpc's own limits.
-/

namespace StlDice
namespace Net
open BinVOX

variable {F : Type}

/-- `pb.NewJobRequest`, stl2svx/proto/stl2svx.proto:21-35, 65-81. -/
structure WireRequest (F : Type) where
  Dim : Int
  NX : Int
  NY : Int
  NZ : Int
  OutPrefix : Bytes
  StlFiles : List (List (Tri (Option (Vec F))))

/-- `gl.V(t.V1.X, t.V1.Y, t.V1.Z), …`, stl2svx/stl/stl.go:34-37: `none` is the panic. -/
def corners (t : Tri (Option (Vec F))) : Option (Tri (Vec F)) :=
  match t.V1 with
  | none => none
  | some a => match t.V2 with
    | none => none
    | some b => match t.V3 with
      | none => none
      | some c => some ⟨a, b, c⟩

/-- The loop of `stl.New`, stl2svx/stl/stl.go:32-38. -/
def decode : List (Tri (Option (Vec F))) → Option (List (Tri (Vec F)))
  | [] => some []
  | t :: ts => match corners t with
    | none => none
    | some t' => match decode ts with
      | none => none
      | some ts' => some (t' :: ts')

/-- All files of a request, stl2svx/agent/agent.go:103-104. -/
def decodeAll : List (List (Tri (Option (Vec F)))) → Option (List (List (Tri (Vec F))))
  | [] => some []
  | f :: fs => match decode f with
    | none => none
    | some ts => match decodeAll fs with
      | none => none
      | some tss => some (ts :: tss)

/-- `stl.New`, stl2svx/stl/stl.go:31-78. -/
def Lib.stlNewWire [GoFloat F] (lib : Lib F) (f : List (Tri (Option (Vec F)))) (dim nx ny nz : Int) :
    Res (List (Tri (Vec F)) × Layout F) :=
  match decode f with
  | none => .panic
  | some ts => match lib.stlNew ts dim nx ny nz with
    | .ok L => .ok (ts, L)
    | .err => .err
    | .panic => .panic

/-- The start of `NewJob`, stl2svx/master/master.go:40-48: `.err` is returned to the client, `.panic` ends the master. -/
def newJobWire [GoFloat F] (lib : Lib F) (q : WireRequest F) : Res (SvxReq F) :=
  match q.StlFiles with
  | [] => .err
  | base :: _ =>
    if base.length = 0 then .err
    else match lib.stlNewWire base q.Dim q.NX q.NY q.NZ with
      | .ok (ts, L) => .ok ⟨q.Dim, q.NX, q.NY, q.NZ, q.OutPrefix, L, lib.bbox ts⟩
      | .err => .err
      | .panic => .panic

/-- `SliceJob` for slice `z`, stl2svx/agent/agent.go:57-143: `none` is the end of the process.  The files are taken in
    their order, so a file that cannot be decoded ends the process if no earlier file or voxel has; `SliceJob` does not return
    before all files have been taken (the channel is closed after the last one). -/
def AgentWire [GoFloat F] (lib : Lib F) (q : WireRequest F) (z : Int) (res : Option Image) : Prop :=
  match decodeAll q.StlFiles with
  | none => res = none
  | some files => AgentSliceRun q.Dim q.NX q.NY q.NZ z (files.map fun ts => (lib.mesh ts, lib.bbox ts)) res

/-- `pb.SliceJobRequest`, stl2svx/proto/stl2svx.proto:52-56. -/
structure SliceRequest (F : Type) where
  job : Option (WireRequest F)
  z : Int

/-- `in.GetNewJobRequest()` and the getters of the result, stl2svx/agent/agent.go:101-113, 196-211. -/
def SliceRequest.get (r : SliceRequest F) : WireRequest F := r.job.getD ⟨0, 0, 0, 0, [], []⟩

/-- The handler of the agent for any message. -/
def AgentCall [GoFloat F] (lib : Lib F) (r : SliceRequest F) (res : Option Image) : Prop := AgentWire lib r.get r.z res

/-- What the rest of the world does to the master, with requests off the wire (`reqs i` is that of job `i`): as in `Serving`. -/
def ServingWire [GoFloat F] (lib : Lib F) (codec : Codec F) (reqs : Nat → WireRequest F) (_ : MState F) (l : MLabel F) : Prop :=
  (∀ i r, l = .start i r → newJobWire lib (reqs i) = .ok r) ∧
  (∀ i z png, l = .sliceOk i z png → ∃ img, AgentWire lib (reqs i) z (some img) ∧ png = codec.png img)

end Net
end StlDice
