import Verif.Model.SvxNet

/-!
# The start of a server: stl2svx/stl2svx-server/stl2svx-server.go `main`, stl2svx/agent/agent.go `New`

One process as a transition system that records what it does to the outside.  The network is an environment: whether
`net.Listen` works and on which address, what `net.Interfaces` returns, the outcome of each `grpc.Dial` and of the one
`RegisterAgent` call.  Not modelled: `flag.Parse` (Model/Flag), `grpc` itself, log output.
-/

namespace StlDice
namespace Net

/-- What the process does that others can see. -/
inductive Act where
  /-- `net.Listen` succeeded: connections to the address are queued from now on. -/
  | listen (addr : Bytes)
  /-- one `grpc.Dial(masterAddress)` -/
  | dial (master : Bytes) (ok : Bool)
  /-- one `RegisterAgent` call to the master with this address -/
  | register (master addr : Bytes) (ok : Bool)
  /-- `s.Serve` with the master service registered -/
  | serveMaster
  /-- `s.Serve` with the agent service registered -/
  | serveAgent
  /-- `log.Fatal` -/
  | exit
deriving DecidableEq, Repr

/-- The environment of one process. -/
structure ServerEnv where
  listen : Option Bytes
  ifaces : Option (List (Option (List Addr)))
  dial : Nat → Bool
  register : Bool

/-- Where the process is. -/
inductive Pc where
  | start
  | bound (addr : Bytes)
  | dialling (addr : Bytes) (i : Nat)
  | connected (addr : Bytes)
  | ready
  | done
deriving DecidableEq, Repr

/-- One step of a server started with `-master=master`. -/
inductive ServerStep (env : ServerEnv) (master : Bytes) : Pc → Act → Pc → Prop
  /-- stl2svx/stl2svx-server/stl2svx-server.go:31 -/
  | listen (a : Bytes) (h : env.listen = some a) : ServerStep env master .start (.listen a) (.bound a)
  /-- stl2svx/stl2svx-server/stl2svx-server.go:32-34 -/
  | noListen (h : env.listen = none) : ServerStep env master .start .exit .done
  /-- stl2svx/stl2svx-server/stl2svx-server.go:38-40, 50 -/
  | master (a : Bytes) (h : master = []) : ServerStep env master (.bound a) .serveMaster .done
  /-- `net.Interfaces` fails, stl2svx/stl2svx-server/stl2svx-server.go:58-61 -/
  | noIfaces (a : Bytes) (h : master ≠ []) (hi : env.ifaces = none) : ServerStep env master (.bound a) .exit .done
  /-- `getAddress` and the first `grpc.Dial`, stl2svx/stl2svx-server/stl2svx-server.go:42-44, stl2svx/agent/agent.go:37 -/
  | dial0 (a : Bytes) (ifs : List (Option (List Addr))) (h : master ≠ []) (hi : env.ifaces = some ifs) :
      ServerStep env master (.bound a) (.dial master (env.dial 0))
        (if env.dial 0 then .connected (getAddress a ifs) else .dialling (getAddress a ifs) 1)
  /-- `continue`, stl2svx/agent/agent.go:38-43 -/
  | redial (a : Bytes) (i : Nat) : ServerStep env master (.dialling a i) (.dial master (env.dial i))
        (if env.dial i then .connected a else .dialling a (i + 1))
  /-- stl2svx/agent/agent.go:46-51 -/
  | register (a : Bytes) : ServerStep env master (.connected a) (.register master a env.register)
        (if env.register then .ready else .done)
  /-- stl2svx/stl2svx-server/stl2svx-server.go:48, 50 -/
  | serve : ServerStep env master .ready .serveAgent .done

/-- The acts of a process up to some moment, and where it is. A refused registration ends the process by `log.Fatal`,
    stl2svx/stl2svx-server/stl2svx-server.go:44-47. -/
inductive ServerRun (env : ServerEnv) (master : Bytes) : List Act → Pc → Prop
  | nil : ServerRun env master [] .start
  | step {h s a t} (hr : ServerRun env master h s) (hs : ServerStep env master s a t) : ServerRun env master (h ++ [a]) t

end Net
end StlDice
