import Verif.Model.BinVoxIO

/-! # The encoder goroutine and the writer connected by a bounded channel

binvox/write.go:60-79 and vshell/write.go:65-105: a producer goroutine runs a loop that sends at most
one item per iteration and possibly one more at the end, then closes the channel; the consumer ranges
over the channel.  The producer is described by its loop body; producer and consumer interleave
arbitrarily. -/

namespace StlDice

/-- A producer loop: `step` is one iteration (new local state, possibly one item to send before the
    locals change), `finish` the optional last send. -/
structure Producer (S I O : Type) where
  step : S → I → S × Option O
  finish : S → Option O

/-- Where the producer is. -/
inductive Phase where
  | looping
  | closing
  | closed
deriving DecidableEq

/-- Joint state of producer, channel and consumer. -/
structure PC (S I O : Type) where
  todo : List I
  loc : S
  phase : Phase
  buf : List O
  got : List O
  done : Bool

/-- Initial state. -/
def PC.init {S I O : Type} (s : S) (is : List I) : PC S I O := ⟨is, s, .looping, [], [], false⟩

/-- One scheduling step, channel capacity `cap` > 0 (100 in the code).
    * `work`: an iteration that sends nothing
    * `workSend`: an iteration that sends, possible only while the buffer is not full
    * `finish`, `finishSend`: after the loop; * `close`: `close(ch)`
    * `recv`: the consumer takes the oldest item; * `recvEnd`: the consumer sees the closed, empty
      channel and leaves its loop. -/
inductive PCStep {S I O : Type} (P : Producer S I O) (cap : Nat) : PC S I O → PC S I O → Prop
  | work {c : PC S I O} {i is s'} (hp : c.phase = .looping) (hd : c.todo = i :: is)
      (hs : P.step c.loc i = (s', none)) : PCStep P cap c { c with todo := is, loc := s' }
  | workSend {c : PC S I O} {i is s' o} (hp : c.phase = .looping) (hd : c.todo = i :: is)
      (hs : P.step c.loc i = (s', some o)) (hb : c.buf.length < cap) :
      PCStep P cap c { c with todo := is, loc := s', buf := c.buf ++ [o] }
  | finish {c : PC S I O} (hp : c.phase = .looping) (hd : c.todo = []) (hs : P.finish c.loc = none) :
      PCStep P cap c { c with phase := .closing }
  | finishSend {c : PC S I O} {o} (hp : c.phase = .looping) (hd : c.todo = [])
      (hs : P.finish c.loc = some o) (hb : c.buf.length < cap) :
      PCStep P cap c { c with phase := .closing, buf := c.buf ++ [o] }
  | close {c : PC S I O} (hp : c.phase = .closing) : PCStep P cap c { c with phase := .closed }
  | recv {c : PC S I O} {o os} (hd : c.done = false) (hb : c.buf = o :: os) :
      PCStep P cap c { c with buf := os, got := c.got ++ [o] }
  | recvEnd {c : PC S I O} (hd : c.done = false) (hb : c.buf = []) (hp : c.phase = .closed) :
      PCStep P cap c { c with done := true }

/-- Any number of steps of any schedule. -/
inductive PCReach {S I O : Type} (P : Producer S I O) (cap : Nat) : PC S I O → PC S I O → Prop
  | refl (c) : PCReach P cap c c
  | tail {a b c} (h : PCReach P cap a b) (s : PCStep P cap b c) : PCReach P cap a c

/-- binvox `encode`, binvox/write.go:93-124: locals `value, count`; one cell per iteration. -/
def binEncoder (lookup : WhiteVoxelMap) : Producer (UInt8 × Nat) Key (UInt8 × Nat) where
  step s k :=
    let newValue : UInt8 := if lookup.has k then 1 else 0
    if newValue ≠ s.1 then ((newValue, 1), if s.2 > 0 then some s else none)
    else ((s.1, s.2 + 1), none)
  finish s := if s.2 > 0 then some s else none

end StlDice
