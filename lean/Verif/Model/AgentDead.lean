import Verif.Model.Master

/-! # The stl2svx master when an agent has died -/

namespace StlDice
namespace Net

/-- Agent `a` works on slice `z` of job `i`: `runAgent` has taken its address out of the idle ones and calls it,
    stl2svx/master/master.go:82-104, 126-141. -/
def Calls {F : Type} (s : MState F) (a : Bytes) (i z : Nat) : Prop := ∃ J, s.job i = some J ∧ J.task z = .busy a

/-- What the master can do from the state `s` on when the agent at the address `a` is gone, and no other is started at this address
    (stl2svx/master/master.go:73-141): `a` does not register, and no call to it succeeds, as `SliceJob` fails
    (stl2svx/master/master.go:100-104) or, which is possible but not the rule, `grpc.Dial` does (stl2svx/master/master.go:91-95).  The list
    has the calls to `a` that have failed.  Nothing else changes: the master does not look at its agents. -/
inductive AfterDeath {F : Type} (P : MState F → MLabel F → Prop) (a : Bytes) (s : MState F) : List (MLabel F) → MState F → Prop
  | here : AfterDeath P a s [] s
  /-- anything but an answer of `a` -/
  | other {fs : List (MLabel F)} {t t' : MState F} {l : MLabel F} (h : AfterDeath P a s fs t) (hp : P t l) (hs : MStep t l t')
      (hr : l ≠ .register a)
      (hn : ∀ i z, Calls t a i z → l ≠ .dialErr i z ∧ l ≠ .sliceErr i z ∧ ∀ png, l ≠ .sliceOk i z png) : AfterDeath P a s fs t'
  /-- a call to `a` fails -/
  | fails {fs : List (MLabel F)} {t t' : MState F} {l : MLabel F} {i z : Nat} (h : AfterDeath P a s fs t) (hp : P t l) (hs : MStep t l t')
      (hw : Calls t a i z) (hl : l = .sliceErr i z ∨ l = .dialErr i z) : AfterDeath P a s (fs ++ [l]) t'

end Net
end StlDice
