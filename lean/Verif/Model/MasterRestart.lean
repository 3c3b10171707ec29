import Verif.Model.Master
import Verif.Model.Server

/-! # The stl2svx master together with its agents, killed and started again -/

namespace StlDice
namespace Net

/-- A process of stl2svx-server that was started as an agent: its environment and where it is
    (stl2svx/stl2svx-server/stl2svx-server.go:28-51). -/
structure Proc where
  env : ServerEnv
  pc : Pc

/-- The master process at the address `master` and the agent processes started with that address. -/
structure World (F : Type) where
  m : MState F
  procs : Nat → Option Proc

/-- What happens. -/
inductive WLabel
  | master
  | agent (k : Nat)
  | register (k : Nat) (b : Bytes)
  | launch (k : Nat)
  | kill (k : Nat)
  | restart
deriving DecidableEq

/-- One step of the service. -/
inductive WStep {F : Type} (master : Bytes) : World F → WLabel → World F → Prop
  /-- The master does anything but answer a registration, stl2svx/master/master.go:40-70, 82-141. -/
  | master {w : World F} {l : MLabel F} {s : MState F} (hl : ∀ a, l ≠ .register a) (hs : MStep w.m l s) :
      WStep master w .master { w with m := s }
  /-- An agent process does anything but register with success, stl2svx/stl2svx-server/stl2svx-server.go:31-50. -/
  | agent {w : World F} {k : Nat} {p : Proc} {a : Act} {t : Pc} (hp : w.procs k = some p) (ha : ∀ b, a ≠ .register master b true)
      (hs : ServerStep p.env master p.pc a t) : WStep master w (.agent k) { w with procs := upd w.procs k (some { p with pc := t }) }
  /-- An agent process registers, stl2svx/agent/agent.go:46-51, and the master adds it, stl2svx/master/master.go:73-80. -/
  | register {w : World F} {k : Nat} {p : Proc} {b : Bytes} {t : Pc} {s : MState F} (hp : w.procs k = some p)
      (hs : ServerStep p.env master p.pc (.register master b true) t) (hm : MStep w.m (.register b) s) :
      WStep master w (.register k b) ⟨s, upd w.procs k (some { p with pc := t })⟩
  /-- A new agent process, stl2svx/stl2svx-server/stl2svx-server.go:28. -/
  | launch {w : World F} {k : Nat} {env : ServerEnv} (hk : w.procs k = none) :
      WStep master w (.launch k) { w with procs := upd w.procs k (some ⟨env, .start⟩) }
  /-- An agent process is killed; the master (stl2svx/master/master.go:73-141) does not notice. -/
  | kill {w : World F} {k : Nat} : WStep master w (.kill k) { w with procs := upd w.procs k none }
  /-- The master is killed and started again at the same address: its state (stl2svx/master/master.go:27-38) is lost, and all calls to it
      have failed. -/
  | restart {w : World F} : WStep master w .restart { w with m := .init }

/-- Any number of steps, with what happened. -/
inductive WPath {F : Type} (master : Bytes) (w : World F) : List WLabel → World F → Prop
  | here : WPath master w [] w
  | step {ls : List WLabel} {l : WLabel} {v u : World F} (h : WPath master w ls v) (hs : WStep master v l u) : WPath master w (ls ++ [l]) u

end Net
end StlDice
