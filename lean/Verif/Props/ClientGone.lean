import Verif.Model.ClientGone
import Verif.Props.Wire

/-! # C134: what a client that goes away costs the stl2svx service -/

namespace StlDice

namespace Spec

/-- What happened from the state `s` on, oldest first, and the state it led to. -/
inductive Onward {F : Type} (P : MState F → MLabel F → Prop) (s : MState F) : List (MLabel F) → MState F → Prop
  | here : Onward P s [] s
  | step {ls : List (MLabel F)} {t t' : MState F} {l : MLabel F} (h : Onward P s ls t) (hp : P t l) (hs : MStep t l t') :
      Onward P s (ls ++ [l]) t'

/-- The image of slice `z` of the job has not come. -/
def NoImage {F : Type} (J : JobState F) (z : Nat) : Prop := ∀ png, J.task z ≠ .writing png ∧ J.task z ≠ .done png

end Spec

namespace Net
open Spec

variable {F : Type}

theorem onward_history {P Q : MState F → MLabel F → Prop} {ls₁ ls₂ : List (MLabel F)} {s t : MState F} (h : History P ls₁ s)
    (h2 : Onward (fun s l => P s l ∧ Q s l) s ls₂ t) : History P (ls₁ ++ ls₂) t := by
  induction h2 with
  | here => rwa [List.append_nil]
  | step _ hp hs ih =>
    rw [← List.append_assoc]
    exact .step ih hp.1 hs

/-- Slices without image stay without. -/
theorem abandoned_tasks {P : MState F → MLabel F → Prop} {ls : List (MLabel F)} {s t : MState F} {i : Nat}
    (h : Onward (fun s l => P s l ∧ Abandoned i l) s ls t) {J : JobState F} (hj : s.job i = some J) :
    ∃ K, t.job i = some K ∧ K.req = J.req ∧ ∀ z, NoImage J z → NoImage K z := by
  induction h with
  | here => exact ⟨J, hj, rfl, fun _ h => h⟩
  | @step ls t t' l _ hp hs ih =>
    obtain ⟨K, hk, hreq, hz⟩ := ih
    have hex : ∃ K', t'.job i = some K' := by
      have keep : ∀ {k : Nat} {v : JobState F}, ∃ K', upd t.job k (some v) i = some K' := by
        intro k v
        by_cases hi : i = k
        · exact ⟨v, by rw [hi]; exact upd_same _ _ _⟩
        · exact ⟨K, by rw [upd_ne _ _ _ _ hi]; exact hk⟩
      cases hs with
      | register => exact ⟨K, hk⟩
      | start => exact keep
      | manifest => exact keep
      | blanks => exact keep
      | take => exact keep
      | dialErr => exact keep
      | sliceOk => exact keep
      | sliceErr => exact keep
      | write => exact keep
      | finish => exact keep
    obtain ⟨K', hk'⟩ := hex
    rcases step_task hs hk' with ⟨hn, _⟩ | ⟨K0, hk0, hr, ht⟩
    · rw [hn] at hk; cases hk
    · rw [hk] at hk0
      injection hk0 with hk0
      subst hk0
      refine ⟨K', hk', hr.trans hreq, ?_⟩
      intro z hno png
      have hK := hz z hno
      rcases ht z with e | ⟨_, e⟩ | ⟨a, _, e⟩ | ⟨p, hl, _⟩ | ⟨_, e⟩ | ⟨p, hw, _⟩
      · rw [e]; exact hK png
      · rw [e]; exact ⟨by rintro ⟨⟩, by rintro ⟨⟩⟩
      · rw [e]; exact ⟨by rintro ⟨⟩, by rintro ⟨⟩⟩
      · exact absurd hl (hp.2 z p)
      · rw [e]; exact ⟨by rintro ⟨⟩, by rintro ⟨⟩⟩
      · exact absurd hw (hK p).1

/-- **C134.** The client of job `i` goes away when the images of the slices `left` have not come.  In every history, if the job
    ends all the same, it has lost all these slices, and each with an agent: the agents left are fewer than the registrations by their number. -/
theorem abandoned_costs_agents {P : MState F → MLabel F → Prop} {ls₁ ls₂ : List (MLabel F)} {s t : MState F} {i : Nat} (h : History P ls₁ s)
    (h2 : Onward (fun s l => P s l ∧ Abandoned i l) s ls₂ t) {J K : JobState F} (hj : s.job i = some J) (hk : t.job i = some K)
    {left : Finset Nat} (hl : ∀ z ∈ left, z < J.n ∧ NoImage J z) {rep : Reply} (hp : K.phase = .returned rep) :
    (∀ z ∈ left, K.task z = .dropped) ∧
    ∀ (idle : Finset Bytes) (busy : Finset (Nat × Nat)), (∀ a ∈ idle, t.idle a = true) →
      (∀ x ∈ busy, ∃ a, Spec.Working t a x.1 x.2) → idle.card + busy.card + left.card ≤ registrations (ls₁ ++ ls₂) := by
  have hh := onward_history h h2
  obtain ⟨K', hk', hreq, hno⟩ := abandoned_tasks h2 hj
  rw [hk] at hk'
  injection hk' with hk'
  subst hk'
  have hn : K.n = J.n := by unfold JobState.n; rw [hreq]
  have hd : ∀ z ∈ left, K.task z = .dropped := by
    intro z hz
    rcases returned_all (history_reach hh) i K rep hk hp z (by rw [hn]; exact (hl z hz).1) with h1 | ⟨png, h1⟩
    · exact h1
    · exact absurd h1 (hno z (hl z hz).2 png).2
  refine ⟨hd, ?_⟩
  intro idle busy h1 h2
  let lost : Finset (Nat × Nat) := left.image fun z => (i, z)
  have hc : lost.card = left.card := Finset.card_image_of_injective _ (fun a b h => by injection h)
  have hdis : Disjoint busy lost := by
    rw [Finset.disjoint_left]
    intro x hx hl
    obtain ⟨z, hz, rfl⟩ := Finset.mem_image.mp hl
    obtain ⟨a, K', hK, ha⟩ := h2 _ hx
    dsimp only at hK ha
    rw [hk] at hK
    injection hK with hK
    subst hK
    rw [hd z hz] at ha
    cases ha
  have := failed_calls_cost_agents hh idle h1 (busy ∪ lost) (by
    intro x hx
    rcases Finset.mem_union.mp hx with hx | hx
    · obtain ⟨a, K', hK, ha⟩ := h2 x hx
      exact ⟨K', hK, .inl ⟨a, ha⟩⟩
    · obtain ⟨z, hz, rfl⟩ := Finset.mem_image.mp hx
      exact ⟨K, hk, .inr (hd z hz)⟩)
  rw [Finset.card_union_of_disjoint hdis, hc] at this
  omega

/-- **C134.** With fewer registrations than slices left it never ends, with nobody to wait for it. -/
theorem abandoned_needs_agents {P : MState F → MLabel F → Prop} {ls₁ ls₂ : List (MLabel F)} {s t : MState F} {i : Nat} (h : History P ls₁ s)
    (h2 : Onward (fun s l => P s l ∧ Abandoned i l) s ls₂ t) {J K : JobState F} (hj : s.job i = some J) (hk : t.job i = some K)
    {left : Finset Nat} (hl : ∀ z ∈ left, z < J.n ∧ NoImage J z) (hn : registrations (ls₁ ++ ls₂) < left.card) (rep : Reply) :
    K.phase ≠ .returned rep := by
  intro hp
  have := (abandoned_costs_agents h h2 hj hk hl hp).2 ∅ ∅ (by intro a ha; cases ha) (by intro a ha; cases ha)
  simp only [Finset.card_empty] at this
  omega

/-- **C134.** If no more agents registered than it had slices left, then after it every other job that has a slice left is starved, so the
    same job sent once more: by C66 it does not return unless an agent registers. -/
theorem abandoned_starves_others {P : MState F → MLabel F → Prop} {ls₁ ls₂ : List (MLabel F)} {s t : MState F} {i : Nat} (h : History P ls₁ s)
    (h2 : Onward (fun s l => P s l ∧ Abandoned i l) s ls₂ t) {J K : JobState F} (hj : s.job i = some J) (hk : t.job i = some K)
    {left : Finset Nat} (hl : ∀ z ∈ left, z < J.n ∧ NoImage J z) (hn : registrations (ls₁ ++ ls₂) ≤ left.card)
    {rep : Reply} (hp : K.phase = .returned rep) {k : Nat} {M : JobState F} (hm : t.job k = some M) (hr : M.phase = .running) {z : Nat}
    (hz : z < M.n) (hw : M.task z = .waiting) : Spec.Starved t k := by
  have hb := (abandoned_costs_agents h h2 hj hk hl hp).2
  refine ⟨?_, ?_, M, z, hm, hr, hz, hw⟩
  · intro a
    cases ha : t.idle a with
    | false => rfl
    | true =>
      have := hb {a} ∅ (by intro b hb; rw [Finset.mem_singleton.mp hb]; exact ha) (by intro a ha; cases ha)
      rw [Finset.card_singleton, Finset.card_empty] at this
      omega
  · intro a j x hx
    have := hb ∅ {(j, x)} (by intro a ha; cases ha) (by intro b hb; rw [Finset.mem_singleton.mp hb]; exact ⟨a, hx⟩)
    rw [Finset.card_singleton, Finset.card_empty] at this
    omega

theorem onward_trans {P : MState F → MLabel F → Prop} {ls₁ ls₂ : List (MLabel F)} {s t u : MState F} (h : Onward P s ls₁ t) (h2 : Onward P t ls₂ u) :
    Onward P s (ls₁ ++ ls₂) u := by
  induction h2 with
  | here => rwa [List.append_nil]
  | step _ hp hs ih =>
    rw [← List.append_assoc]
    exact .step ih hp hs

/-- **C134.** The job goes on taking agents: if it has at least as many slices to begin as there are idle agents, it can take and lose all of
    them, without any other job having a turn. -/
theorem abandoned_takes_all {i : Nat} : ∀ (idle : Finset Bytes) {s : MState F} {J : JobState F} {left : Finset Nat}, s.job i = some J →
    J.phase = .running → (∀ a, s.idle a = true → a ∈ idle) → (∀ z ∈ left, z < J.n ∧ J.task z = .waiting) → idle.card ≤ left.card →
    ∃ ls t, Onward (fun _ l => Abandoned i l ∧ ((∃ z a, l = .take i z a) ∨ ∃ z, l = .sliceErr i z)) s ls t ∧ ∀ a, t.idle a = false := by
  intro idle
  induction idle using Finset.induction with
  | empty =>
    intro s J left _ _ hi _ _
    refine ⟨[], s, .here, ?_⟩
    intro a
    cases ha : s.idle a with
    | false => rfl
    | true => exact absurd (hi a ha) (Finset.notMem_empty a)
  | insert a idle hna ih =>
    intro s J left hj hp hi hl hc
    rw [Finset.card_insert_of_notMem hna] at hc
    cases ha : s.idle a with
    | false =>
      refine ih hj hp ?_ hl (by omega)
      intro b hb
      rcases Finset.mem_insert.mp (hi b hb) with rfl | h
      · rw [ha] at hb; cases hb
      · exact h
    | true =>
      obtain ⟨z, hz⟩ : left.Nonempty := by
        rw [Finset.nonempty_iff_ne_empty]
        rintro rfl
        rw [Finset.card_empty] at hc
        omega
      have s1 : MStep s (.take i z a) _ := .take s i z a J hj hp (hl z hz).1 (hl z hz).2 ha
      have hj2 : upd s.job i (some (J.setTask z (.busy a))) i = some (J.setTask z (.busy a)) := upd_same _ _ _
      have s2 := MStep.sliceErr { s with idle := upd s.idle a false, job := upd s.job i (some (J.setTask z (.busy a))) } i z a
        (J.setTask z (.busy a)) hj2 (upd_same _ _ _)
      obtain ⟨ls, t, h1, h2⟩ := ih (s := { s with
            idle := upd s.idle a false,
            job := upd (upd s.job i (some (J.setTask z (.busy a)))) i (some ((J.setTask z (.busy a)).setTask z .dropped)) })
          (J := (J.setTask z (.busy a)).setTask z .dropped) (left := left.erase z) (by
          exact upd_same _ _ _) hp (by
          intro b hb
          dsimp only at hb
          by_cases hba : b = a
          · subst hba; rw [upd_same] at hb; cases hb
          · rw [upd_ne _ _ _ _ hba] at hb
            exact (Finset.mem_insert.mp (hi b hb)).resolve_left hba) (by
          intro x hx
          obtain ⟨hne, hx⟩ := Finset.mem_erase.mp hx
          refine ⟨(hl x hx).1, ?_⟩
          have e : ((J.setTask z (.busy a)).setTask z .dropped).task x = (J.setTask z (.busy a)).task x := upd_ne _ _ _ _ hne
          have e2 : (J.setTask z (.busy a)).task x = J.task x := upd_ne _ _ _ _ hne
          rw [e, e2]
          exact (hl x hx).2) (by
          rw [Finset.card_erase_of_mem hz]
          omega)
      refine ⟨_, t, onward_trans (.step (.step .here ⟨?_, .inl ⟨z, a, rfl⟩⟩ s1) ⟨?_, .inr ⟨z, rfl⟩⟩ s2) h1, h2⟩
      · intro x png h; cases h
      · intro x png h; cases h

/-! ## A case that meets the hypotheses -/

theorem execAll_onward {P : MState F → MLabel F → Prop} (ls : List (MLabel F)) :
    ∀ (s t t' : MState F) (ls0 : List (MLabel F)), Onward P s ls0 t → execAll t ls = some t' → (∀ u, ∀ l ∈ ls, P u l) →
      Onward P s (ls0 ++ ls) t' := by
  induction ls with
  | nil =>
    intro s t t' ls0 h he _
    simp only [execAll, Option.some.injEq] at he
    subst he
    rwa [List.append_nil]
  | cons l ls ih =>
    intro s t t' ls0 h he hP
    simp only [execAll] at he
    cases hx : exec t l with
    | none => rw [hx] at he; cases he
    | some u =>
      rw [hx] at he
      have := ih s u t' (ls0 ++ [l]) (.step h (hP t l List.mem_cons_self) (exec_sound t u l hx)) he
        (fun t' l' hl' => hP t' l' (List.mem_cons_of_mem _ hl'))
      rwa [List.append_assoc] at this

theorem execAll_append (l₁ l₂ : List (MLabel F)) : ∀ (s : MState F), execAll s (l₁ ++ l₂) = (execAll s l₁).bind fun t => execAll t l₂ := by
  induction l₁ with
  | nil => intro s; rfl
  | cons l l₁ ih =>
    intro s
    show (exec s l).bind _ = ((exec s l).bind _).bind _
    rw [Option.bind_assoc]
    congr 1
    funext t
    exact ih t

/-- **C134.** Two agents register; the client of a job with two slices goes away while the first agent works: both agents are lost, the job ends,
    and the next job, which may be the same one sent again, is starved. -/
theorem client_gone_takes_service : ∃ (ls₁ ls₂ : List (MLabel ℚ)) (s t : MState ℚ) (J K : JobState ℚ),
    History (fun _ _ => True) ls₁ s ∧ Onward (fun _ l => True ∧ Abandoned 0 l) s ls₂ t ∧ registrations (ls₁ ++ ls₂) = 2 ∧
    s.job 0 = some J ∧ (∀ z ∈ Finset.range 2, z < J.n ∧ NoImage J z) ∧ (∃ a z, Spec.Working s a 0 z) ∧
    t.job 0 = some K ∧ (∃ rep, K.phase = .returned rep) ∧ Spec.Starved t 1 := by
  let ls₁ : List (MLabel ℚ) := [.register [65], .register [66], .start 0 exReq, .manifest 0, .blanks 0, .take 0 0 [65]]
  let ls₂ : List (MLabel ℚ) := [.take 0 1 [66], .sliceErr 0 0, .start 1 exReq, .sliceErr 0 1, .finish 0, .manifest 1, .blanks 1]
  obtain ⟨s, h1, h2⟩ := execAll_some ls₁ (fun s => (s.job 0).map (fun J => (J.n, J.task 0, J.task 1)))
    (some (2, .busy [65], .waiting)) (by decide +kernel)
  obtain ⟨t, h3, h4⟩ := execAll_some (ls₁ ++ ls₂) (fun s => ((s.job 0).map (fun J => (J.n, match J.phase with | .returned _ => true | _ => false)),
    (s.job 1).map (fun J => (J.n, J.phase, J.task 0)))) (some (2, true), some (2, .running, .waiting)) (by decide +kernel)
  have hh : History (fun _ _ => True) ls₁ s := execAll_history ls₁ _ s [] .init h1 fun _ _ _ => trivial
  rw [execAll_append, h1] at h3
  have ho : Onward (fun _ l => True ∧ Abandoned 0 l) s ls₂ t := execAll_onward ls₂ s s t [] .here h3 (by
    intro u l hl
    refine ⟨trivial, ?_⟩
    rintro z png rfl
    simp only [ls₂, List.mem_cons, List.not_mem_nil, or_false, reduceCtorEq] at hl)
  obtain ⟨J, hJ, h2⟩ := Option.map_eq_some_iff.mp h2
  injection h2 with h5 h6
  injection h6 with h6 h7
  injection h4 with h4 h8
  obtain ⟨K, hK, h4⟩ := Option.map_eq_some_iff.mp h4
  obtain ⟨M, hM, h8⟩ := Option.map_eq_some_iff.mp h8
  injection h4 with h4 h9
  injection h8 with h10 h11
  injection h11 with h11 h12
  obtain ⟨rep, hp⟩ : ∃ rep, K.phase = .returned rep := by
    split at h9
    · rename_i r hr
      exact ⟨r, hr⟩
    · cases h9
  have hl : ∀ z ∈ Finset.range 2, z < J.n ∧ NoImage J z := by
    intro z hz
    have hz := Finset.mem_range.mp hz
    refine ⟨by omega, ?_⟩
    intro png
    obtain rfl | rfl : z = 0 ∨ z = 1 := by omega
    · rw [h6]; exact ⟨by rintro ⟨⟩, by rintro ⟨⟩⟩
    · rw [h7]; exact ⟨by rintro ⟨⟩, by rintro ⟨⟩⟩
  refine ⟨ls₁, ls₂, s, t, J, K, hh, ho, rfl, hJ, hl, ⟨[65], 0, J, hJ, h6⟩, hK, ⟨rep, hp⟩, ?_⟩
  exact abandoned_starves_others (P := fun _ _ => True) hh ho hJ hK hl (by decide) hp hM h11 (z := 0) (by rw [h10]; decide) h12

/-- `abandoned_takes_all`: two idle agents, two slices. -/
example : ∃ (s : MState ℚ) (J : JobState ℚ), s.job 0 = some J ∧ J.phase = .running ∧ s.idle [65] = true ∧ s.idle [66] = true ∧
    ∃ ls t, Onward (fun _ l => Abandoned 0 l ∧ ((∃ z a, l = .take 0 z a) ∨ ∃ z, l = .sliceErr 0 z)) s ls t ∧ ∀ a, t.idle a = false := by
  have hd : ∀ z ∈ Finset.range 2, z < (⟨exReq, .running, fun _ => .waiting⟩ : JobState ℚ).n ∧
      (⟨exReq, .running, fun _ => .waiting⟩ : JobState ℚ).task z = .waiting := by
    intro z hz
    refine ⟨?_, rfl⟩
    have : (⟨exReq, .running, fun _ => .waiting⟩ : JobState ℚ).n = 2 := by decide +kernel
    rw [this]
    exact Finset.mem_range.mp hz
  refine ⟨⟨fun a => decide (a = [65] ∨ a = [66]), some 0, fun _ => [], fun _ => none,
    upd (fun _ => none) 0 (some ⟨exReq, .running, fun _ => .waiting⟩)⟩, ⟨exReq, .running, fun _ => .waiting⟩, rfl, rfl, by decide, by decide, ?_⟩
  refine abandoned_takes_all {[65], [66]} rfl rfl ?_ hd (by decide)
  intro a ha
  have := of_decide_eq_true ha
  simpa using this

end Net
end StlDice
