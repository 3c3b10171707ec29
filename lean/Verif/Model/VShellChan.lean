import Verif.Model.Chan
import Verif.Model.VShellIO

/-!
# vshell: the encoder goroutine and a writer that may fail

vshell/write.go:65-105.  `write` starts the encoder goroutine, receives its runs from a channel of capacity 100 and
writes each of them to the file at once.  When a write fails it returns without reading the channel any further; the
goroutine is not told.  (binvox/write.go:60-82 collects everything in a `bytes.Buffer` first, whose `Write` never
fails, so there the loop always reads to the end.)
-/

namespace StlDice

/-- The state of one call of `write` after the header: encoder and channel (`got`: the runs received so far, `done`: `write`
    has returned), the file, `numVoxels` and what `write` returned (`some none` = error). -/
structure VWrite where
  pc : PC (BitVec 32 × Nat) Key (BitVec 32 × Nat)
  w : Sink
  numVoxels : Int
  ret : Option (Option Int)

/-- vshell/write.go:65-66: the state when the encoder has just been started, with the file `w` after the header. -/
def VWrite.init (w : Sink) (r : Region) : VWrite := ⟨PC.init (0#32, 0) (cells r), w, 0, none⟩

/-- One step of any schedule, channel capacity `cap` (100 in the code).
    * `enc`: the encoder goroutine, vshell/write.go:113-140, also after `write` has returned
    * `recvOk`: the loop receives a run and writes it, vshell/write.go:69-102
    * `recvErr`: one of these writes fails and `write` returns the error, lines 72, 75, 88 or 99
    * `finish`: the channel is closed and empty, `write` returns the count, line 104 -/
inductive VWStep (vs : List VShVoxel) (lk : GoMap Key Nat) (cap : Nat) : VWrite → VWrite → Prop
  | enc {s : VWrite} {c' : PC (BitVec 32 × Nat) Key (BitVec 32 × Nat)}
      (h : PCStep (vshEncoder vs lk) cap s.pc c') (hg : c'.got = s.pc.got) (hd : c'.done = s.pc.done) :
      VWStep vs lk cap s { s with pc := c' }
  | recvOk {s : VWrite} {o os w'} (hd : s.pc.done = false) (hb : s.pc.buf = o :: os)
      (hw : s.w.writeAll (vRunCalls o) = (w', true)) :
      VWStep vs lk cap s { s with pc := { s.pc with buf := os, got := s.pc.got ++ [o] }, w := w',
                                  numVoxels := s.numVoxels + if isSpecial o.1 then 0 else (o.2 : Int) }
  | recvErr {s : VWrite} {o os w'} (hd : s.pc.done = false) (hb : s.pc.buf = o :: os)
      (hw : s.w.writeAll (vRunCalls o) = (w', false)) :
      VWStep vs lk cap s { s with pc := { s.pc with buf := os, got := s.pc.got ++ [o], done := true }, w := w',
                                  ret := some none }
  | finish {s : VWrite} (hd : s.pc.done = false) (hb : s.pc.buf = []) (hp : s.pc.phase = .closed) :
      VWStep vs lk cap s { s with pc := { s.pc with done := true }, ret := some (some s.numVoxels) }

/-- Any number of steps of any schedule. -/
inductive VWReach (vs : List VShVoxel) (lk : GoMap Key Nat) (cap : Nat) : VWrite → VWrite → Prop
  | refl (s) : VWReach vs lk cap s s
  | tail {a b c} (h : VWReach vs lk cap a b) (s : VWStep vs lk cap b c) : VWReach vs lk cap a c

end StlDice
