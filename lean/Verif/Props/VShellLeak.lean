import Verif.Model.VShellChan
import Verif.Props.VShellFile

/-! # C110: a failed vsh write leaves its encoder goroutine behind -/

namespace StlDice
open Spec
variable {F : Type} {vs : List VShVoxel} {lk : GoMap Key Nat} {cap : Nat}

theorem writeAll_append (w : Sink) (a b : List Bytes) :
    w.writeAll (a ++ b) = if (w.writeAll a).2 then (w.writeAll a).1.writeAll b else w.writeAll a := by
  induction a generalizing w with
  | nil => simp [Sink.writeAll]
  | cons c a ih =>
    have e : ∀ l, w.writeAll (c :: l) = if (w.write c).2 then (w.write c).1.writeAll l else w.write c := by
      intro l
      rw [Sink.writeAll]
      rcases w.write c with ⟨w', ok⟩
      cases ok <;> simp
    rw [List.cons_append, e, e]
    by_cases hok : (w.write c).2 = true
    · simp only [hok, if_true]; exact ih _
    · simp [hok]

/-- An encoder step keeps the invariant of the machine and decreases the measure. -/
structure VWInv (vs : List VShVoxel) (lk : GoMap Key Nat) (cap : Nat) (w0 : Sink) (all : List (BitVec 32 × Nat))
    (s : VWrite) : Prop where
  order : s.pc.got ++ s.pc.buf ++ s.pc.future (vshEncoder vs lk) = all
  room : s.pc.buf.length ≤ cap
  busy : s.pc.done = false → s.ret = none ∧ w0.writeAll (s.pc.got.flatMap vRunCalls) = (s.w, true) ∧
    s.numVoxels = (s.pc.got.map (fun v => if isSpecial v.1 then 0 else (v.2 : Int))).sum
  left : s.pc.done = true →
    (s.ret = some (some ((s.pc.got.map (fun v => if isSpecial v.1 then 0 else (v.2 : Int))).sum)) ∧
      s.pc.buf = [] ∧ s.pc.phase = .closed ∧ w0.writeAll (s.pc.got.flatMap vRunCalls) = (s.w, true)) ∨
    (s.ret = some none ∧ w0.writeAll (s.pc.got.flatMap vRunCalls) = (s.w, false) ∧
      ∃ pre o, s.pc.got = pre ++ [o] ∧ (w0.writeAll (pre.flatMap vRunCalls)).2 = true)

theorem PCStep.kept {S I O : Type} {P : Producer S I O} {cap : Nat} {all : List O} {c c' : PC S I O}
    (h1 : c.got ++ c.buf ++ c.future P = all) (h2 : c.buf.length ≤ cap) (st : PCStep P cap c c') :
    c'.got ++ c'.buf ++ c'.future P = all ∧ c'.buf.length ≤ cap := by
  by_cases hd : c.done = true
  · have hi : PC.Inv P cap all { c with done := false } := ⟨h1, h2, by simp⟩
    have st' : PCStep P cap { c with done := false } { c' with done := false } := by
      cases st with
      | work hp hd hs => exact .work (c := { c with done := false }) hp hd hs
      | workSend hp hd hs hb => exact .workSend (c := { c with done := false }) hp hd hs hb
      | finish hp hd hs => exact .finish (c := { c with done := false }) hp hd hs
      | finishSend hp hd hs hb => exact .finishSend (c := { c with done := false }) hp hd hs hb
      | close hp => exact .close (c := { c with done := false }) hp
      | recv hd' hb => rw [hd] at hd'; cases hd'
      | recvEnd hd' hb hp => rw [hd] at hd'; cases hd'
    have := PCStep.inv hi st'
    exact ⟨this.1, this.2.1⟩
  · have hi : PC.Inv P cap all c := ⟨h1, h2, fun h => absurd h hd⟩
    have := PCStep.inv hi st
    exact ⟨this.1, this.2.1⟩

theorem VWStep.inv {w0 : Sink} {all : List (BitVec 32 × Nat)} {s t : VWrite}
    (h : VWInv vs lk cap w0 all s) (st : VWStep vs lk cap s t) : VWInv vs lk cap w0 all t := by
  cases st with
  | @enc c' hs hg hd =>
    obtain ⟨k1, k2⟩ := PCStep.kept h.order h.room hs
    refine ⟨k1, k2, ?_, ?_⟩
    · dsimp only; rw [hd, hg]; exact h.busy
    · dsimp only
      rw [hd, hg]
      intro hdone
      rcases h.left hdone with ⟨a, b, c, d⟩ | e
      · exfalso
        cases hs with
        | work hp _ _ => rw [c] at hp; cases hp
        | workSend hp _ _ _ => rw [c] at hp; cases hp
        | finish hp _ _ => rw [c] at hp; cases hp
        | finishSend hp _ _ _ => rw [c] at hp; cases hp
        | close hp => rw [c] at hp; cases hp
        | recv hd' _ => rw [hdone] at hd'; cases hd'
        | recvEnd hd' _ _ => rw [hdone] at hd'; cases hd'
      · exact Or.inr e
  | @recvOk o os w' hd hb hw =>
    have h1 := h.order
    have h2 := h.room
    have h3 := h.busy hd
    refine ⟨?_, ?_, ?_, ?_⟩
    · dsimp only [PC.future] at *
      rw [hb] at h1; rw [← h1]; simp
    · dsimp only; rw [hb] at h2; simp at h2 ⊢; omega
    · intro _
      dsimp only
      refine ⟨h3.1, ?_, ?_⟩
      · rw [List.flatMap_append, writeAll_append, h3.2.1]
        simpa using hw
      · rw [h3.2.2]; simp
    · dsimp only; intro hdone; rw [hd] at hdone; cases hdone
  | @recvErr o os w' hd hb hw =>
    have h1 := h.order
    have h2 := h.room
    have h3 := h.busy hd
    refine ⟨?_, ?_, ?_, ?_⟩
    · dsimp only [PC.future] at *
      rw [hb] at h1; rw [← h1]; simp
    · dsimp only; rw [hb] at h2; simp at h2 ⊢; omega
    · dsimp only; intro hdone; cases hdone
    · intro _
      dsimp only
      refine Or.inr ⟨rfl, ?_, s.pc.got, o, rfl, by rw [h3.2.1]⟩
      rw [List.flatMap_append, writeAll_append, h3.2.1]
      simpa using hw
  | finish hd hb hp =>
    have h3 := h.busy hd
    refine ⟨?_, h.room, ?_, ?_⟩
    · exact h.order
    · dsimp only; intro hdone; cases hdone
    · intro _
      exact Or.inl ⟨by dsimp only; rw [h3.2.2], hb, hp, h3.2.1⟩

theorem vshEncoder_all (r : Region) :
    (vshEncoder vs lk).rest (0#32, 0) (cells r) = vEncodeRuns vs lk r := by
  have := vshEncoder_rest vs lk (cells r) ⟨0#32, 0, []⟩
  rw [List.nil_append] at this
  exact this.symm

theorem VWReach.inv {w0 : Sink} {r : Region} {s : VWrite} (h : VWReach vs lk cap (VWrite.init w0 r) s) :
    VWInv vs lk cap w0 (vEncodeRuns vs lk r) s := by
  generalize hi : VWrite.init w0 r = s0 at h
  induction h with
  | refl =>
    subst hi
    refine ⟨?_, Nat.zero_le _, fun _ => ⟨rfl, rfl, rfl⟩, fun hd => by cases hd⟩
    exact vshEncoder_all r
  | tail h st ih => exact VWStep.inv ih st

theorem VWStep.decreases {s t : VWrite} (st : VWStep vs lk cap s t) : t.pc.measure < s.pc.measure := by
  cases st with
  | enc h _ _ => exact h.decreases
  | recvOk hd hb hw => simp [PC.measure, hb]
  | recvErr hd hb hw => simp [PC.measure, hd, hb]; omega
  | finish hd hb hp => simp [PC.measure, hd, hb, hp]

/-- **C110.** Every schedule is finite: at most `3 · cells + 5` steps, whatever writes fail. -/
theorem vsh_write_terminates (w0 : Sink) (r : Region) (n : Nat) (path : Nat → VWrite)
    (h0 : path 0 = VWrite.init w0 r) (hs : ∀ i < n, VWStep vs lk cap (path i) (path (i + 1))) :
    n ≤ 3 * (cells r).length + 5 := by
  have hm : ∀ i ≤ n, (path i).pc.measure + i ≤ (path 0).pc.measure := by
    intro i hi
    induction i with
    | zero => simp
    | succ i ih =>
      have := (hs i (by omega)).decreases
      have := ih (by omega)
      omega
  have := hm n (Nat.le_refl n)
  rw [h0] at this
  have e : (VWrite.init w0 r).pc.measure = 3 * (cells r).length + 5 := by
    simp [VWrite.init, PC.init, PC.measure]
  omega

/-- **C110.** Until `write` has returned something can always happen: neither side waits for ever. -/
theorem vsh_write_progress (hcap : 0 < cap) (w0 : Sink) (r : Region) (s : VWrite)
    (h : VWReach vs lk cap (VWrite.init w0 r) s) (hr : s.ret = none) : ∃ t, VWStep vs lk cap s t := by
  have hi := h.inv
  have hd : s.pc.done = false := by
    by_contra hd
    rcases hi.left (by simpa using hd) with ⟨a, _⟩ | ⟨a, _⟩ <;> rw [hr] at a <;> cases a
  obtain ⟨c', hc⟩ := PC.progress (P := vshEncoder vs lk) hcap hd
  cases hc with
  | work hp h2 hs => exact ⟨_, .enc (.work hp h2 hs) rfl rfl⟩
  | workSend hp h2 hs hb => exact ⟨_, .enc (.workSend hp h2 hs hb) rfl rfl⟩
  | finish hp h2 hs => exact ⟨_, .enc (.finish hp h2 hs) rfl rfl⟩
  | finishSend hp h2 hs hb => exact ⟨_, .enc (.finishSend hp h2 hs hb) rfl rfl⟩
  | close hp => exact ⟨_, .enc (.close hp) rfl rfl⟩
  | @recv o os hd' hb =>
    rcases hw : s.w.writeAll (vRunCalls o) with ⟨w', ok⟩
    cases ok
    · exact ⟨_, .recvErr hd' hb hw⟩
    · exact ⟨_, .recvOk hd' hb hw⟩
  | recvEnd hd' hb hp => exact ⟨_, .finish hd' hb hp⟩

theorem writeAll_stop (w : Sink) (a b : List Bytes) (h : (w.writeAll a).2 = false) :
    w.writeAll (a ++ b) = w.writeAll a := by
  rw [writeAll_append, h]; simp

/-- **C110.** Whatever the schedule and whichever writes fail, `write` returns what it returns when the runs are
    computed first and written afterwards, and leaves the same bytes in the file. -/
theorem vsh_write_schedule [FloatText F] (b : VShell F) (hne : b.Voxels ≠ []) (w : Sink) (r : Region) (s : VWrite)
    (res : Option Int) :
    let r' := writeRegion b.NX b.NY b.NZ r
    VWReach b.Voxels (vshLookup b.Voxels) cap
      (VWrite.init (w.write (headerBytes vshMagic r'.cx r'.cy r'.cz b.TX b.TY b.TZ b.Scale)).1 r') s →
    s.ret = some res → (s.w, res) = b.write w r := by
  intro r' h hr
  have hi := h.inv
  have hl : b.Voxels.length ≠ 0 := by simpa using hne
  have hd : s.pc.done = true := by
    by_contra hd
    have := (hi.busy (by simpa using hd)).1
    rw [hr] at this; cases this
  simp only [VShell.write, hl, if_false]
  rcases hi.left hd with ⟨a, hb, hp, hw⟩ | ⟨a, hw, _⟩
  · have hall : s.pc.got = vEncodeRuns b.Voxels (vshLookup b.Voxels) r' := by
      have := hi.order
      simpa [PC.future, hp, hb] using this
    rw [hall] at hw a
    rw [hr] at a
    rw [hw]
    simp only [Option.some.injEq] at a
    rw [a]; rfl
  · rw [hr] at a
    have hsplit : vEncodeRuns b.Voxels (vshLookup b.Voxels) r' =
        s.pc.got ++ (s.pc.buf ++ s.pc.future (vshEncoder b.Voxels (vshLookup b.Voxels))) := by
      rw [← hi.order, List.append_assoc]
    have e := writeAll_stop _ (s.pc.got.flatMap vRunCalls)
      ((s.pc.buf ++ s.pc.future (vshEncoder b.Voxels (vshLookup b.Voxels))).flatMap vRunCalls)
      (by rw [hw])
    rw [← List.flatMap_append, ← hsplit, hw] at e
    rw [e]
    simp only [Option.some.injEq] at a
    rw [a]; rfl

/-- The encoder alone: it goes on unless it is finished or the channel is full. -/
theorem encoder_goes_on {s : VWrite} (hp : s.pc.phase ≠ .closed) (hb : s.pc.buf.length < cap) :
    ∃ t, VWStep vs lk cap s t := by
  cases hph : s.pc.phase with
  | looping =>
    cases ht : s.pc.todo with
    | nil =>
      cases hs : (vshEncoder vs lk).finish s.pc.loc with
      | none => exact ⟨_, .enc (.finish hph ht hs) rfl rfl⟩
      | some o => exact ⟨_, .enc (.finishSend hph ht hs hb) rfl rfl⟩
    | cons i is =>
      rcases hs : (vshEncoder vs lk).step s.pc.loc i with ⟨s', o⟩
      cases o with
      | none => exact ⟨_, .enc (.work hph ht hs) rfl rfl⟩
      | some o => exact ⟨_, .enc (.workSend hph ht hs hb) rfl rfl⟩
  | closing => exact ⟨_, .enc (.close hph) rfl rfl⟩
  | closed => exact absurd hph hp

theorem future_ne_nil_of_stuck {s : VWrite} (hstuck : ¬ ∃ t, VWStep vs lk cap s t) (hp : s.pc.phase ≠ .closed) :
    s.pc.phase = .looping ∧ s.pc.future (vshEncoder vs lk) ≠ [] := by
  cases hph : s.pc.phase with
  | looping =>
    refine ⟨rfl, ?_⟩
    unfold PC.future
    rw [hph]
    cases ht : s.pc.todo with
    | nil =>
      cases hs : (vshEncoder vs lk).finish s.pc.loc with
      | none => exact absurd ⟨_, .enc (.finish hph ht hs) rfl rfl⟩ hstuck
      | some o => simp [Producer.rest, hs]
    | cons i is =>
      rcases hs : (vshEncoder vs lk).step s.pc.loc i with ⟨s', o⟩
      cases o with
      | none => exact absurd ⟨_, .enc (.work hph ht hs) rfl rfl⟩ hstuck
      | some o => simp [Producer.rest, hs]
  | closing => exact absurd ⟨_, .enc (.close hph) rfl rfl⟩ hstuck
  | closed => exact absurd hph hp

/-- **C110, success.** When `write` returns without an error its encoder goroutine has ended. -/
theorem vsh_write_ok_no_goroutine (w0 : Sink) (r : Region) (s : VWrite)
    (h : VWReach vs lk cap (VWrite.init w0 r) s) (n : Int) (hr : s.ret = some (some n)) :
    s.pc.phase = .closed := by
  have hi := h.inv
  have hd : s.pc.done = true := by
    by_contra hd
    have := (hi.busy (by simpa using hd)).1
    rw [hr] at this; cases this
  rcases hi.left hd with ⟨_, _, hp, _⟩ | ⟨a, _⟩
  · exact hp
  · rw [hr] at a; cases a

/-- **C110, failure.** Let the file take the first `n` runs and fail in run `n`. Then whatever the schedule, when nothing
    more can happen `write` has returned an error, and the encoder goroutine has ended iff at most `cap` runs (100 in
    the code) come after run `n`; otherwise it waits for ever with a full channel. -/
theorem vsh_write_goroutine_left_iff (hcap : 0 < cap) (w0 : Sink) (r : Region) (n : Nat)
    (hn : n < (vEncodeRuns vs lk r).length)
    (hok : (w0.writeAll (((vEncodeRuns vs lk r).take n).flatMap vRunCalls)).2 = true)
    (hfail : (w0.writeAll (((vEncodeRuns vs lk r).take (n + 1)).flatMap vRunCalls)).2 = false)
    (s : VWrite) (h : VWReach vs lk cap (VWrite.init w0 r) s) (hstuck : ¬ ∃ t, VWStep vs lk cap s t) :
    s.ret = some none ∧
    (s.pc.phase = .closed ↔ (vEncodeRuns vs lk r).length ≤ n + 1 + cap) ∧
    (s.pc.phase ≠ .closed → s.pc.phase = .looping ∧ s.pc.buf.length = cap) := by
  have hi := h.inv
  generalize hall : vEncodeRuns vs lk r = all at *
  have hret : s.ret ≠ none := fun hr => hstuck (vsh_write_progress hcap w0 r s h hr)
  have hd : s.pc.done = true := by
    by_contra hd
    exact hret (hi.busy (by simpa using hd)).1
  have hpre : s.pc.got = all.take s.pc.got.length := by
    rw [← hi.order, List.append_assoc, List.take_left]
  -- writing a longer part of the runs still fails
  have hmono : ∀ k, n + 1 ≤ k → (w0.writeAll ((all.take k).flatMap vRunCalls)).2 = false := by
    intro k hk
    have : all.take k = all.take (n + 1) ++ (all.take k).drop (n + 1) := by
      conv_lhs => rw [← List.take_append_drop (n + 1) (all.take k), List.take_take, Nat.min_eq_left hk]
    rw [this, List.flatMap_append, writeAll_stop _ _ _ hfail]
    exact hfail
  have hmono' : ∀ k, k ≤ n → (w0.writeAll ((all.take k).flatMap vRunCalls)).2 = true := by
    intro k hk
    by_contra hne
    have hne : (w0.writeAll ((all.take k).flatMap vRunCalls)).2 = false := by simpa using hne
    have : all.take n = all.take k ++ (all.take n).drop k := by
      conv_lhs => rw [← List.take_append_drop k (all.take n), List.take_take, Nat.min_eq_left hk]
    rw [this, List.flatMap_append, writeAll_stop _ _ _ hne, hne] at hok
    cases hok
  have hlen : s.pc.got.length ≤ all.length := by
    rw [← hi.order]; simp
  have herr : s.ret = some none ∧ s.pc.got.length = n + 1 := by
    rcases hi.left hd with ⟨_, hb, hp, hw⟩ | ⟨a, hw, pre, o, hpo, hok'⟩
    · exfalso
      have hg : s.pc.got = all := by
        have := hi.order
        simpa [PC.future, hp, hb] using this
      have := hmono all.length (by omega)
      rw [List.take_length, ← hg, hw] at this
      cases this
    · refine ⟨a, ?_⟩
      have hl : s.pc.got.length = pre.length + 1 := by rw [hpo]; simp
      have hpre' : pre = all.take pre.length := by
        have : pre = s.pc.got.take pre.length := by rw [hpo, List.take_left]
        rw [hpre, List.take_take, hl, Nat.min_eq_left (by omega)] at this
        exact this
      have h1 : pre.length ≤ n := by
        by_contra hgt
        have := hmono pre.length (by omega)
        rw [← hpre', hok'] at this; cases this
      have h2 : n < s.pc.got.length := by
        by_contra hle
        have := hmono' s.pc.got.length (by omega)
        rw [← hpre, hw] at this; cases this
      omega
  have hsum : all.length = (n + 1) + s.pc.buf.length + (s.pc.future (vshEncoder vs lk)).length := by
    rw [← hi.order, ← herr.2]; simp only [List.length_append]
  refine ⟨herr.1, ⟨?_, ?_⟩, ?_⟩
  · intro hp
    have : s.pc.future (vshEncoder vs lk) = [] := by unfold PC.future; rw [hp]
    rw [this] at hsum
    have := hi.room
    simp at hsum; omega
  · intro hle
    by_contra hp
    obtain ⟨_, hf⟩ := future_ne_nil_of_stuck hstuck hp
    have hf := List.length_pos_of_ne_nil hf
    exact hstuck (encoder_goes_on hp (by omega))
  · intro hp
    obtain ⟨hl, _⟩ := future_ne_nil_of_stuck hstuck hp
    have := hi.room
    refine ⟨hl, ?_⟩
    by_contra hne
    exact hstuck (encoder_goes_on hp (by omega))

/-- From every state of every schedule one gets to a state where nothing more can happen. -/
theorem vsh_write_settles {s0 : VWrite} (s : VWrite) (h : VWReach vs lk cap s0 s) :
    ∃ t, VWReach vs lk cap s0 t ∧ ¬ ∃ u, VWStep vs lk cap t u := by
  induction hm : s.pc.measure using Nat.strong_induction_on generalizing s with
  | _ m ih =>
    by_cases hs : ∃ u, VWStep vs lk cap s u
    · obtain ⟨u, hu⟩ := hs
      exact ih u.pc.measure (by have := hu.decreases; omega) u (.tail h hu) rfl
    · exact ⟨s, h, hs⟩

/-- A column of 103 voxels with different values: 103 runs. -/
def leakVox : List VShVoxel := (List.range 103).map fun i : Nat => ⟨0, i, 0, BitVec.ofNat 32 (i + 1)⟩

theorem leak_runs : (vEncodeRuns leakVox (vshLookup leakVox) ⟨0, 0, 0, 1, 103, 1⟩).length = 103 := by decide +kernel

/-- **C110, it happens.** A shell of 103 different voxels in a column and a file that fails at once: `write` returns an
    error, and whatever the schedule its goroutine is left waiting for ever. -/
theorem vsh_write_leaks :
    (∃ s, VWReach leakVox (vshLookup leakVox) 100 (VWrite.init ⟨[], [.fail 0]⟩ ⟨0, 0, 0, 1, 103, 1⟩) s ∧
      ¬ ∃ t, VWStep leakVox (vshLookup leakVox) 100 s t) ∧
    ∀ s, VWReach leakVox (vshLookup leakVox) 100 (VWrite.init ⟨[], [.fail 0]⟩ ⟨0, 0, 0, 1, 103, 1⟩) s →
      (¬ ∃ t, VWStep leakVox (vshLookup leakVox) 100 s t) →
      s.ret = some none ∧ s.pc.phase = .looping ∧ s.pc.buf.length = 100 := by
  refine ⟨vsh_write_settles _ (.refl _), ?_⟩
  intro s h hs
  have := vsh_write_goroutine_left_iff (by decide) ⟨[], [.fail 0]⟩ ⟨0, 0, 0, 1, 103, 1⟩ 0
    (by rw [leak_runs]; decide) rfl (by decide +kernel) s h hs
  rw [leak_runs] at this
  have hp : s.pc.phase ≠ .closed := fun hc => absurd (this.2.1.mp hc) (by decide)
  exact ⟨this.1, this.2.2 hp⟩

/-- With one run less the goroutine ends. -/
example : (vEncodeRuns (leakVox.take 101) (vshLookup (leakVox.take 101)) ⟨0, 0, 0, 1, 101, 1⟩).length ≤ 0 + 1 + 100 := by
  decide +kernel

/-- A whole schedule of a successful write of one voxel, and the theorems above on it. -/
theorem exVWrite : VWReach [⟨0, 0, 0, 5#32⟩] (vshLookup [⟨0, 0, 0, 5#32⟩]) 100
    (VWrite.init ⟨[], []⟩ ⟨0, 0, 0, 1, 1, 1⟩)
    ⟨⟨[], (5#32, 1), .closed, [], [(5#32, 1)], true⟩, ⟨[5, 0, 0, 0, 1], []⟩, 1, some (some 1)⟩ := by
  refine .tail (.tail (.tail (.tail (.tail (.refl _)
    (.enc (.work (i := ⟨0, 0, 0⟩) (is := []) (s' := (5#32, 1)) rfl rfl rfl) rfl rfl))
    (.enc (.finishSend (o := (5#32, 1)) rfl rfl rfl (by decide)) rfl rfl))
    (.recvOk (o := (5#32, 1)) (os := []) (w' := ⟨[5, 0, 0, 0, 1], []⟩) rfl rfl rfl))
    (.enc (.close rfl) rfl rfl))
    (.finish rfl rfl rfl)

example := vsh_write_ok_no_goroutine _ _ _ exVWrite 1 rfl
example := vsh_write_schedule (F := ℚ) (cap := 100) ⟨1, 1, 1, 0, 0, 0, 1, [⟨0, 0, 0, 5#32⟩]⟩ (by decide) ⟨[], []⟩
  ⟨0, 0, 0, 1, 1, 1⟩ _ none (.refl _)
example := vsh_write_terminates (vs := leakVox) (lk := vshLookup leakVox) (cap := 100) ⟨[], []⟩ ⟨0, 0, 0, 1, 103, 1⟩ 1
  (fun i => if i = 0 then VWrite.init ⟨[], []⟩ ⟨0, 0, 0, 1, 103, 1⟩ else
    ⟨⟨(cells ⟨0, 0, 0, 1, 103, 1⟩).tail, (1#32, 1), .looping, [], [], false⟩, ⟨[], []⟩, 0, none⟩) rfl (by
    intro i hi
    have : i = 0 := by omega
    subst this
    exact .enc (s := VWrite.init ⟨[], []⟩ ⟨0, 0, 0, 1, 103, 1⟩) (.work (i := ⟨0, 0, 0⟩)
      (is := (cells ⟨0, 0, 0, 1, 103, 1⟩).tail) (s' := (1#32, 1)) rfl rfl (by decide +kernel)) rfl rfl)
example := vsh_write_progress (vs := leakVox) (lk := vshLookup leakVox) (cap := 100) (by decide) ⟨[], []⟩
  ⟨0, 0, 0, 1, 103, 1⟩ _ (.refl _) rfl

end StlDice
