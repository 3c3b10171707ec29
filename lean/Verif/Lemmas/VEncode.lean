import Verif.Lemmas.VData

/-! The vsh encoder: runs with a 16-bit counter. -/

namespace StlDice
open Spec
variable {F : Type}

/-- The encoder with an unbounded counter (ghost). -/
def gStep (s : VEncState) (nv : BitVec 32) : VEncState :=
  if nv ≠ s.value then
    { value := nv, count := 1,
      sent := if s.count > 0 then s.sent ++ [(s.value, s.count)] else s.sent }
  else { s with count := s.count + 1 }

/-- What a 16-bit counter makes of runs: lengths modulo 65536, runs of length 0 vanish. -/
def Spec.wrap16 (ps : List (BitVec 32 × Nat)) : List (BitVec 32 × Nat) :=
  (ps.map fun p => (p.1, p.2 % 65536)).filter fun p => p.2 ≠ 0

theorem wrap16_append (a b : List (BitVec 32 × Nat)) : wrap16 (a ++ b) = wrap16 a ++ wrap16 b := by
  simp [wrap16]

theorem wrap16_single (v : BitVec 32) (n : Nat) :
    wrap16 [(v, n)] = if n % 65536 > 0 then [(v, n % 65536)] else [] := by
  unfold wrap16
  by_cases h : n % 65536 = 0
  · simp [h]
  · simp [h, Nat.pos_of_ne_zero h]

/-- Relation between code state and ghost state. -/
def EncRel (s g : VEncState) : Prop :=
  s.value = g.value ∧ s.count = g.count % 65536 ∧ s.sent = wrap16 g.sent

theorem encRel_step {s g : VEncState} (h : EncRel s g) (nv : BitVec 32) :
    EncRel (vEncodeStep s nv) (gStep g nv) := by
  obtain ⟨h1, h2, h3⟩ := h
  unfold vEncodeStep gStep
  rw [h1]
  by_cases hne : nv ≠ g.value
  · rw [if_pos hne, if_pos hne]
    refine ⟨rfl, by simp, ?_⟩
    dsimp only
    rw [h2, h3]
    by_cases hc : g.count > 0
    · rw [if_pos hc, wrap16_append, wrap16_single]
      split <;> simp
    · have : g.count = 0 := by omega
      simp [this]
  · rw [if_neg hne, if_neg hne]
    refine ⟨rfl, ?_, h3⟩
    dsimp only
    rw [h2]; omega

theorem encRel_foldl {s g : VEncState} (h : EncRel s g) (vals : List (BitVec 32)) :
    EncRel (vals.foldl vEncodeStep s) (vals.foldl gStep g) := by
  induction vals generalizing s g with
  | nil => exact h
  | cons v vals ih => exact ih (encRel_step h v)

theorem encRel_finish {s g : VEncState} (h : EncRel s g) : s.finish = wrap16 g.finish := by
  obtain ⟨h1, h2, h3⟩ := h
  unfold VEncState.finish
  rw [h1, h2, h3]
  by_cases hc : g.count > 0
  · rw [if_pos hc, wrap16_append, wrap16_single]
    split <;> simp
  · have : g.count = 0 := by omega
    simp [this]

/-- Invariant of the ghost encoder. -/
def GInv (vals : List (BitVec 32)) (g : VEncState) : Prop :=
  expandV g.sent ++ List.replicate g.count g.value = vals ∧ (∀ p ∈ g.sent, 0 < p.2) ∧
    List.IsChain (fun p q => p.1 ≠ q.1) g.sent ∧
    (g.count = 0 → g.sent = []) ∧ (∀ p ∈ g.sent.getLast?, p.1 ≠ g.value)

theorem expandV_append (a b : List (BitVec 32 × Nat)) : expandV (a ++ b) = expandV a ++ expandV b := by
  simp [expandV]

theorem gInv_finish_chain {vals : List (BitVec 32)} {g : VEncState} (h : GInv vals g) :
    List.IsChain (fun p q => p.1 ≠ q.1) (g.sent ++ [(g.value, g.count)]) := by
  obtain ⟨_, _, h3, _, h5⟩ := h
  rw [List.isChain_append]
  refine ⟨h3, List.isChain_singleton _, ?_⟩
  intro p hp q hq
  simp only [List.head?_cons, Option.mem_def, Option.some.injEq] at hq
  subst hq
  exact h5 p hp

theorem gInv_step {vals : List (BitVec 32)} {g : VEncState} (h : GInv vals g) (nv : BitVec 32) :
    GInv (vals ++ [nv]) (gStep g nv) := by
  have hch := gInv_finish_chain h
  obtain ⟨h1, h2, h3, h4, h5⟩ := h
  unfold gStep
  by_cases hne : nv ≠ g.value
  · rw [if_pos hne]
    by_cases hc : g.count > 0
    · rw [if_pos hc]
      refine ⟨?_, ?_, hch, by simp, ?_⟩
      · simp only [expandV_append, List.replicate_one]
        rw [← h1]; simp [expandV]
      · intro p hp
        rcases List.mem_append.mp hp with hp | hp
        · exact h2 p hp
        · simp only [List.mem_singleton] at hp; subst hp; exact hc
      · intro p hp
        simp only [List.getLast?_append, List.getLast?_singleton, Option.some_or, Option.mem_def,
          Option.some.injEq] at hp
        subst hp
        exact fun e => hne e.symm
    · have h0 : g.count = 0 := by omega
      rw [if_neg hc]
      have hs := h4 h0
      refine ⟨?_, h2, h3, by simp, ?_⟩
      · rw [← h1, h0]; simp [hs, expandV]
      · simp [hs]
  · have he : nv = g.value := by simpa using hne
    rw [if_neg hne]
    refine ⟨?_, h2, h3, by simp, h5⟩
    dsimp only
    rw [List.replicate_succ', ← List.append_assoc, h1, he]

theorem gInv_foldl {pre : List (BitVec 32)} {g : VEncState} (h : GInv pre g) (vals : List (BitVec 32)) :
    GInv (pre ++ vals) (vals.foldl gStep g) := by
  induction vals generalizing pre g with
  | nil => simpa using h
  | cons v vals ih =>
    have := ih (gInv_step h v)
    simpa using this

theorem gInv_finish {vals : List (BitVec 32)} {g : VEncState} (h : GInv vals g) :
    MaximalRuns vals g.finish := by
  have hch := gInv_finish_chain h
  obtain ⟨h1, h2, h3, h4, h5⟩ := h
  unfold VEncState.finish
  by_cases hc : g.count > 0
  · rw [if_pos hc]
    refine ⟨?_, ?_, hch⟩
    · rw [expandV_append, ← h1]; simp [expandV]
    · intro p hp
      rcases List.mem_append.mp hp with hp | hp
      · exact h2 p hp
      · simp only [List.mem_singleton] at hp; subst hp; exact hc
  · rw [if_neg hc]
    have h0 : g.count = 0 := by omega
    refine ⟨?_, h2, h3⟩
    rw [← h1, h0]; simp

/-- The runs sent by the encoder: the maximal runs of the cell values, wrapped to 16 bits. -/
theorem vEncodeRuns_spec (vs : List VShVoxel) (lk : GoMap Key Nat) (r : Region) :
    ∃ runs, MaximalRuns ((cells r).map (vshValue vs lk)) runs ∧ vEncodeRuns vs lk r = wrap16 runs := by
  have h0 : GInv [] (⟨0#32, 0, []⟩ : VEncState) :=
    ⟨rfl, by simp, List.isChain_nil, by simp, by simp⟩
  have hr : EncRel (⟨0#32, 0, []⟩ : VEncState) ⟨0#32, 0, []⟩ := ⟨rfl, rfl, rfl⟩
  refine ⟨_, gInv_finish (by simpa using gInv_foldl h0 ((cells r).map (vshValue vs lk))), ?_⟩
  rw [← encRel_finish (encRel_foldl hr ((cells r).map (vshValue vs lk))), List.foldl_map]
  rfl

/-- Maximal runs are unique. -/
theorem maximalRuns_unique {vals : List (BitVec 32)} {a b : List (BitVec 32 × Nat)}
    (ha : MaximalRuns vals a) (hb : MaximalRuns vals b) : a = b := by
  induction a generalizing vals b with
  | nil =>
    obtain ⟨ha, _, _⟩ := ha
    cases b with
    | nil => rfl
    | cons q b =>
      obtain ⟨hb, hp, _⟩ := hb
      have := hp q (by simp)
      rw [← ha] at hb
      have := congrArg List.length hb
      simp [expandV] at this; omega
  | cons p a ih =>
    cases b with
    | nil =>
      obtain ⟨ha, hp, _⟩ := ha
      obtain ⟨hb, _, _⟩ := hb
      have := hp p (by simp)
      rw [← hb] at ha
      have := congrArg List.length ha
      simp [expandV] at this; omega
    | cons q b =>
      obtain ⟨ha, hpa, hca⟩ := ha
      obtain ⟨hb, hpb, hcb⟩ := hb
      -- the tail of a decomposition does not start with the value of its head
      have hd : ∀ (p : BitVec 32 × Nat) (l : List (BitVec 32 × Nat)), (∀ x ∈ l, 0 < x.2) →
          List.IsChain (fun p q : BitVec 32 × Nat => p.1 ≠ q.1) (p :: l) →
          ∀ x ∈ (expandV l).head?, x ≠ p.1 := by
        intro p l hpos hch x hx
        cases l with
        | nil => simp [expandV] at hx
        | cons y l =>
          have hy := hpos y (by simp)
          obtain ⟨n, hn⟩ : ∃ n, y.2 = n + 1 := ⟨y.2 - 1, by omega⟩
          simp only [expandV, List.flatMap_cons, hn, List.replicate_succ, List.cons_append,
            List.head?_cons, Option.mem_def, Option.some.injEq] at hx
          rw [List.isChain_cons_cons] at hch
          rw [← hx]; exact fun e => hch.1 e.symm
      have hda := hd p a (fun x hx => hpa x (List.mem_cons_of_mem _ hx)) hca
      have hdb := hd q b (fun x hx => hpb x (List.mem_cons_of_mem _ hx)) hcb
      have hpp := hpa p (by simp)
      have hpq := hpb q (by simp)
      have heq : List.replicate p.2 p.1 ++ expandV a = List.replicate q.2 q.1 ++ expandV b := by
        have := ha.trans hb.symm
        simpa [expandV] using this
      have hv : p.1 = q.1 := by
        obtain ⟨n, hn⟩ : ∃ n, p.2 = n + 1 := ⟨p.2 - 1, by omega⟩
        obtain ⟨m, hm⟩ : ∃ m, q.2 = m + 1 := ⟨q.2 - 1, by omega⟩
        rw [hn, hm, List.replicate_succ, List.replicate_succ] at heq
        simp only [List.cons_append, List.cons.injEq] at heq
        exact heq.1
      -- compare the counts
      have aux : ∀ (n m : Nat) (v : BitVec 32) (s t : List (BitVec 32)), (∀ x ∈ s.head?, x ≠ v) →
          (∀ x ∈ t.head?, x ≠ v) → List.replicate n v ++ s = List.replicate m v ++ t → n = m ∧ s = t := by
        intro n
        induction n with
        | zero =>
          intro m v s t hs ht he
          cases m with
          | zero => exact ⟨rfl, by simpa using he⟩
          | succ m =>
            simp only [List.replicate_zero, List.nil_append, List.replicate_succ, List.cons_append] at he
            exact absurd rfl (hs v (by rw [he]; simp))
        | succ n ih =>
          intro m v s t hs ht he
          cases m with
          | zero =>
            simp only [List.replicate_zero, List.nil_append, List.replicate_succ, List.cons_append] at he
            exact absurd rfl (ht v (by rw [← he]; simp))
          | succ m =>
            simp only [List.replicate_succ, List.cons_append, List.cons.injEq, true_and] at he
            obtain ⟨h1, h2⟩ := ih m v s t hs ht he
            exact ⟨by omega, h2⟩
      rw [hv] at heq hda
      obtain ⟨hn, hrest⟩ := aux p.2 q.2 q.1 _ _ hda hdb heq
      have : a = b := ih (vals := expandV a)
        ⟨rfl, fun x hx => hpa x (List.mem_cons_of_mem _ hx), hca.tail⟩
        ⟨hrest.symm, fun x hx => hpb x (List.mem_cons_of_mem _ hx), hcb.tail⟩
      rw [this, Prod.ext hv hn]

/-- A list without a value 65536 times in a row has only short maximal runs. -/
theorem short_runs {vals : List (BitVec 32)} {runs : List (BitVec 32 × Nat)} (h : NoLongRun vals)
    (hm : MaximalRuns vals runs) : ∀ p ∈ runs, p.2 < 65536 := by
  intro p hp
  by_contra hge
  obtain ⟨a, b, rfl⟩ := List.append_of_mem hp
  apply h p.1
  obtain ⟨n, hn⟩ : ∃ n, p.2 = 65536 + n := ⟨p.2 - 65536, by omega⟩
  rw [← hm.1]
  refine ⟨expandV a, List.replicate n p.1 ++ expandV b, ?_⟩
  simp only [expandV, List.flatMap_append, List.flatMap_cons, hn]
  rw [← List.replicate_append_replicate]
  simp only [List.append_assoc]

theorem wrap16_short {runs : List (BitVec 32 × Nat)} (h : ∀ p ∈ runs, 0 < p.2 ∧ p.2 < 65536) :
    wrap16 runs = runs := by
  unfold wrap16
  have : runs.map (fun p => (p.1, p.2 % 65536)) = runs := by
    conv_rhs => rw [← List.map_id runs]
    apply List.map_congr_left
    intro p hp
    rw [Nat.mod_eq_of_lt (h p hp).2]; rfl
  rw [this, List.filter_eq_self]
  intro p hp
  simp; exact Nat.pos_iff_ne_zero.mp (h p hp).1

theorem expandV_length (ps : List (BitVec 32 × Nat)) : (expandV ps).length = (ps.map (·.2)).sum := by
  induction ps with
  | nil => rfl
  | cons p ps ih => simp only [expandV, List.flatMap_cons, List.length_append, List.length_replicate,
      List.map_cons, List.sum_cons] at *; rw [ih]

theorem expandV_wrap16 (ps : List (BitVec 32 × Nat)) :
    expandV (wrap16 ps) = ps.flatMap fun p => List.replicate (p.2 % 65536) p.1 := by
  induction ps with
  | nil => rfl
  | cons p ps ih =>
    have e : p :: ps = [p] ++ ps := rfl
    rw [e, wrap16_append, expandV_append, ih, List.flatMap_append]
    congr 1
    obtain ⟨v, n⟩ := p
    rw [wrap16_single]
    split
    · simp [expandV]
    · have : n % 65536 = 0 := by omega
      simp [expandV, this]

/-- The data survive iff no maximal run reaches 65536. -/
theorem wrap16_faithful_iff (ps : List (BitVec 32 × Nat)) :
    expandV (wrap16 ps) = expandV ps ↔ ∀ p ∈ ps, p.2 < 65536 := by
  constructor
  · intro h
    have hl := congrArg List.length h
    rw [expandV_wrap16] at hl
    have h1 : (ps.flatMap fun p => List.replicate (p.2 % 65536) p.1).length =
        (ps.map fun p => p.2 % 65536).sum := by
      clear h hl
      induction ps with
      | nil => rfl
      | cons p ps ih => simp [List.flatMap_cons]
    rw [h1, expandV_length] at hl
    clear h h1
    have hle : ∀ l : List (BitVec 32 × Nat), (l.map fun p => p.2 % 65536).sum ≤ (l.map (·.2)).sum := by
      intro l
      induction l with
      | nil => simp
      | cons p l ih =>
        simp only [List.map_cons, List.sum_cons]
        have := Nat.mod_le p.2 65536
        omega
    induction ps with
    | nil => simp
    | cons p ps ih =>
      simp only [List.map_cons, List.sum_cons] at hl
      have h1 := hle ps
      have h2 := Nat.mod_le p.2 65536
      have h3 : p.2 % 65536 = p.2 := by omega
      intro q hq
      rcases List.mem_cons.mp hq with rfl | hq
      · have := Nat.mod_lt q.2 (show 65536 > 0 by decide); omega
      · exact ih (by omega) q hq
  · intro h
    rw [expandV_wrap16]
    unfold expandV
    apply List.flatMap_congr
    intro p hp
    rw [Nat.mod_eq_of_lt (h p hp)]

/-! ### Calls and records -/

/-- Records written for one run. -/
def vRunRecs (run : BitVec 32 × Nat) : List (BitVec 32 × Nat) :=
  if Special run.1 then [run]
  else List.replicate (run.2 / 255) (run.1, 255) ++
    (if run.2 % 255 > 0 then [(run.1, run.2 % 255)] else [])

theorem recsBytes_append (a b : List (BitVec 32 × Nat)) :
    recsBytes (a ++ b) = recsBytes a ++ recsBytes b := by simp [recsBytes]

theorem vRunCalls_flatten (run : BitVec 32 × Nat) :
    (vRunCalls run).flatten = recsBytes (vRunRecs run) := by
  unfold vRunCalls vRunRecs
  by_cases hs : Special run.1
  · rw [if_pos ((isSpecial_iff _).mpr hs), if_pos hs]
    simp [recsBytes, recBytes, hs]
  · rw [if_neg (by rw [isSpecial_iff]; exact hs), if_neg hs, recsBytes_append, List.flatten_append]
    congr 1
    · have e : ∀ n, recsBytes (List.replicate n (run.1, 255)) =
          (List.replicate n (le32 run.1 ++ [255])).flatten := by
        intro n
        induction n with
        | zero => rfl
        | succ n ih =>
          simp only [List.replicate_succ, List.flatten_cons, ← ih, recsBytes, List.flatMap_cons]
          congr 1
          simp [recBytes, hs]
      rw [e]
      split
      · simp
      · have : run.2 / 255 = 0 := by omega
        simp [this]
    · split <;> simp [recsBytes, recBytes, hs]

theorem vRunsCalls_flatten (runs : List (BitVec 32 × Nat)) :
    (runs.flatMap vRunCalls).flatten = recsBytes (runs.flatMap vRunRecs) := by
  induction runs with
  | nil => rfl
  | cons a l ih =>
    simp only [List.flatMap_cons, List.flatten_append, ih, recsBytes_append, vRunCalls_flatten]

theorem expandV_vRunRecs (run : BitVec 32 × Nat) :
    expandV (vRunRecs run) = List.replicate run.2 run.1 := by
  unfold vRunRecs
  split
  · simp [expandV]
  · rw [expandV_append]
    have e : ∀ n, expandV (List.replicate n (run.1, 255)) = List.replicate (255 * n) run.1 := by
      intro n
      induction n with
      | zero => rfl
      | succ n ih =>
        rw [List.replicate_succ, show ∀ (x : BitVec 32 × Nat) l, x :: l = [x] ++ l from fun _ _ => rfl,
          expandV_append, ih]
        show List.replicate 255 run.1 ++ [] ++ _ = _
        rw [List.append_nil, List.replicate_append_replicate]
        congr 1; omega
    rw [e]
    have hd := Nat.div_add_mod run.2 255
    split
    · simp only [expandV, List.flatMap_cons, List.flatMap_nil, List.append_nil]
      rw [List.replicate_append_replicate, hd]
    · simp only [expandV, List.flatMap_nil, List.append_nil]
      congr 1; omega

theorem expandV_vRunsRecs (runs : List (BitVec 32 × Nat)) :
    expandV (runs.flatMap vRunRecs) = expandV runs := by
  induction runs with
  | nil => rfl
  | cons a l ih =>
    simp only [List.flatMap_cons, expandV_append, ih, expandV_vRunRecs]
    simp [expandV]

theorem legal_vRunsRecs {runs : List (BitVec 32 × Nat)} (h : ∀ p ∈ runs, p.2 < 65536) :
    LegalRecs (runs.flatMap vRunRecs) := by
  intro p hp
  obtain ⟨run, hrun, hp⟩ := List.mem_flatMap.mp hp
  unfold vRunRecs at hp
  by_cases hs : Special run.1
  · rw [if_pos hs] at hp
    simp only [List.mem_singleton] at hp
    subst hp
    unfold LegalRec; rw [if_pos hs]; exact h _ hrun
  · rw [if_neg hs] at hp
    rcases List.mem_append.mp hp with hp | hp
    · have := List.eq_of_mem_replicate hp; subst this
      unfold LegalRec; rw [if_neg hs]; simp
    · split at hp
      · simp only [List.mem_singleton] at hp; subst hp
        unfold LegalRec; rw [if_neg hs]
        have := Nat.mod_lt run.2 (show 255 > 0 by decide)
        dsimp only; omega
      · simp at hp

theorem wrap16_lt (ps : List (BitVec 32 × Nat)) : ∀ p ∈ wrap16 ps, 0 < p.2 ∧ p.2 < 65536 := by
  intro p hp
  unfold wrap16 at hp
  obtain ⟨h1, h2⟩ := List.mem_filter.mp hp
  obtain ⟨q, _, rfl⟩ := List.mem_map.mp h1
  have := Nat.mod_lt q.2 (show 65536 > 0 by decide)
  simp only [ne_eq, decide_not, Bool.not_eq_true', decide_eq_false_iff_not] at h2
  dsimp only; omega

/-! ### Sinks -/

theorem writeAll_ok (w : Sink) (calls : List Bytes) (h : ∀ o ∈ w.plan, o = WOut.full) :
    (w.writeAll calls).2 = true ∧ (w.writeAll calls).1.out = w.out ++ calls.flatten := by
  induction calls generalizing w with
  | nil => simp [Sink.writeAll]
  | cons bs l ih =>
    unfold Sink.writeAll Sink.write
    rcases hp : w.plan with _ | ⟨o, p⟩
    · dsimp only
      have := ih ⟨w.out ++ bs, []⟩ (by simp)
      simpa using this
    · have := h o (by simp [hp]); subst this
      dsimp only
      have := ih ⟨w.out ++ bs, p⟩ (by intro o ho; exact h o (by simp [hp, ho]))
      simpa using this

/-- The calls succeed iff none of the outcomes they use is a failure. -/
theorem writeAll_ok_iff (w : Sink) (calls : List Bytes) :
    (w.writeAll calls).2 = true ↔ ∀ i < calls.length, ∀ k, w.plan[i]? ≠ some (WOut.fail k) := by
  induction calls generalizing w with
  | nil => simp [Sink.writeAll]
  | cons bs l ih =>
    unfold Sink.writeAll Sink.write
    rcases hp : w.plan with _ | ⟨o, p⟩
    · dsimp only
      rw [ih]; simp
    · cases o with
      | fail k =>
        dsimp only
        simp only [Bool.false_eq_true, List.length_cons, ne_eq, false_iff, not_forall]
        exact ⟨0, by omega, k, by simp⟩
      | full =>
        dsimp only
        rw [ih]
        constructor
        · intro h i hi k
          cases i with
          | zero => simp
          | succ i => simpa using h i (by simpa using hi) k
        · intro h i hi k
          have := h (i + 1) (by simpa using hi) k
          simpa using this

/-! ### Lookup -/

theorem vshLookup_foldl (l : List (VShVoxel × Nat)) (m : GoMap Key Nat) (k : Key) :
    (l.foldl (fun m e => m.set e.1.key e.2) m).get k =
      match l.reverse.find? (fun e => e.1.key = k) with
      | some e => some e.2
      | none => m.get k := by
  induction l generalizing m with
  | nil => simp
  | cons e l ih =>
    simp only [List.foldl_cons, ih, List.reverse_cons, List.find?_append]
    cases l.reverse.find? (fun e => decide (e.1.key = k)) with
    | some x => simp
    | none =>
      by_cases he : e.1.key = k
      · simp [he, GoMap.get_set]
      · simp [he, GoMap.get_set]

theorem vshValue_eq (b : VShell F) (k : Key) :
    vshValue b.Voxels (vshLookup b.Voxels) k = valueAt b k := by
  unfold vshValue vshLookup valueAt
  rw [vshLookup_foldl]
  have hz : ∀ (l : List VShVoxel), (∀ e ∈ l.zipIdx, l[e.2]? = some e.1) := by
    intro l e he
    have := List.mem_zipIdx' he
    rw [List.getElem?_eq_getElem this.1]; exact congrArg some this.2.symm
  have h1 : (b.Voxels.zipIdx.reverse.map Prod.fst) = b.Voxels.reverse := by
    rw [List.map_reverse, List.zipIdx_map_fst]
  have h2 : (b.Voxels.reverse.find? (fun v => decide (v.key = k))) =
      (b.Voxels.zipIdx.reverse.find? (fun e => decide (e.1.key = k))).map Prod.fst := by
    rw [← h1, List.find?_map]; rfl
  rw [h2]
  cases hf : b.Voxels.zipIdx.reverse.find? (fun e => decide (e.1.key = k)) with
  | none => simp
  | some e =>
    have hm := List.mem_of_find?_eq_some hf
    rw [List.mem_reverse] at hm
    simp [hz _ e hm]

end StlDice
