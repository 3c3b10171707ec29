import Verif.Model.Slave
import Verif.Model.Flag

/-!
# stldice-master and stldice-slave as processes of one host

server/stldice-master/stldice-master.go and the `main` of server/stldice-slave/stldice-slave.go.
-/

namespace StlDice
namespace Slave

/-- The two servers. -/
inductive Kind where
  | master
  | slave
deriving DecidableEq

/-- The default of the flag `-port`, stldice-master.go:17, stldice-slave.go:26. -/
def Kind.dflt : Kind → Bytes
  | .master => ascii ":5334"
  | .slave => ascii ":5333"

/-- What `main` passes to `net.Listen`, stldice-master.go:40, stldice-slave.go:132.  A flag is given a value by
    `flag.Parse` only, and `main` does not call it: no flag has been given a value, whatever the arguments. -/
def listenAddr (k : Kind) (_args : List Bytes) : Bytes := (Flag.get [] (ascii "port")).getD k.dflt

/-- What the master replies, stldice-master.go:24-38: the empty message, whatever it is asked. -/
def masterReply {F : Type} (_q : Request F) : Reply := .ok []

/-- A host: who listens at an address; the servers that run; the processes that ended with "failed to listen",
    latest first; what the masters have replied, latest first. -/
structure Host (F : Type) where
  owner : Bytes → Option Nat
  procs : List (Nat × Kind)
  failed : List Nat
  replies : List (Nat × Request F × Reply)

/-- What can happen on a host: a server is started with arguments; another program takes an address or gives it
    back; a server is stopped (by a signal, or by a panic of the slave); a master is asked. -/
inductive HostEvent (F : Type) where
  | start (pid : Nat) (k : Kind) (args : List Bytes)
  | take (pid : Nat) (addr : Bytes)
  | free (pid : Nat) (addr : Bytes)
  | stop (pid : Nat)
  | ask (pid : Nat) (q : Request F)

/-- A process id that is not in use. -/
def Host.Fresh {F : Type} (h : Host F) (pid : Nat) : Prop := (∀ a, h.owner a ≠ some pid) ∧ ∀ p ∈ h.procs, p.1 ≠ pid

/-- One event.  `main`, stldice-master.go:39-47, stldice-slave.go:131-139: `net.Listen` succeeds if nobody listens at the
    address, and the server serves then; otherwise the process ends.
    Simplification: two addresses are in conflict if they are the same text; `net.Listen` fails for no other reason.
    What the slave does with requests is in Model/Slave. -/
inductive HostStep {F : Type} : Host F → HostEvent F → Host F → Prop
  | listen {h pid k args} (hp : h.Fresh pid) (hf : h.owner (listenAddr k args) = none) :
      HostStep h (.start pid k args)
        { h with owner := fun a => if a = listenAddr k args then some pid else h.owner a, procs := (pid, k) :: h.procs }
  | failed {h pid k args p} (hp : h.Fresh pid) (hf : h.owner (listenAddr k args) = some p) :
      HostStep h (.start pid k args) { h with failed := pid :: h.failed }
  | take {h pid a} (hp : ∀ p ∈ h.procs, p.1 ≠ pid) (hf : h.owner a = none) :
      HostStep h (.take pid a) { h with owner := fun b => if b = a then some pid else h.owner b }
  | free {h pid a} (hp : ∀ p ∈ h.procs, p.1 ≠ pid) (hf : h.owner a = some pid) :
      HostStep h (.free pid a) { h with owner := fun b => if b = a then none else h.owner b }
  | stop {h pid k} (hp : (pid, k) ∈ h.procs) :
      HostStep h (.stop pid)
        { h with owner := fun a => if h.owner a = some pid then none else h.owner a, procs := h.procs.filter fun p => p.1 ≠ pid }
  | ask {h pid q} (hp : (pid, Kind.master) ∈ h.procs) :
      HostStep h (.ask pid q) { h with replies := (pid, q, masterReply q) :: h.replies }

/-- Any number of events, in this order. -/
inductive HostRun {F : Type} : Host F → List (HostEvent F) → Host F → Prop
  | nil (h : Host F) : HostRun h [] h
  | cons {h h₁ h₂ e es} (hs : HostStep h e h₁) (hr : HostRun h₁ es h₂) : HostRun h (e :: es) h₂

/-- A host on which no server has been started yet; other programs may listen. -/
def Host.Initial {F : Type} (h : Host F) : Prop := h.procs = [] ∧ h.failed = [] ∧ h.replies = []

end Slave
end StlDice
