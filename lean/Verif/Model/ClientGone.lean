import Verif.Model.Master

/-! # The stl2svx master when a client has gone -/

namespace StlDice

/-- What the master can still do (stl2svx/master/master.go:40, 59, 100) when the client of job `i` is gone, stopped or cut off: gRPC has ended the
    context of its `NewJob` call, which `runAgent` hands to `SliceJob`, so that no such call of the job succeeds any more, whether it
    runs already or begins now.  Nothing else looks at the context: `getIdleAgent` (stl2svx/master/master.go:126-141) and `grpc.Dial` do not. -/
def Abandoned {F : Type} (i : Nat) (l : MLabel F) : Prop := ∀ z png, l ≠ .sliceOk i z png

end StlDice
