import Verif.Props.Master
import Mathlib.Algebra.BigOperators.Group.Finset.Basic

/-! # The stl2svx master: every job returns unless it is starved (C66) -/

namespace StlDice

variable {F : Type}

/-- Neither a registration nor a new job. -/
def Spec.Quiet (l : MLabel F) : Prop := (∀ a, l ≠ .register a) ∧ ∀ i r, l ≠ .start i r

/-- `n` steps of the master, none of them a registration or a new job. -/
inductive Spec.QuietRun : MState F → Nat → MState F → Prop
  | nil (s : MState F) : QuietRun s 0 s
  | cons {s t u : MState F} {l : MLabel F} {n : Nat} : Spec.Quiet l → MStep s l t → QuietRun t n u →
      QuietRun s (n + 1) u

/-- Nothing can happen any more unless an agent registers or a job comes in. -/
def Spec.Stuck (s : MState F) : Prop := ∀ l s', Spec.Quiet l → ¬ MStep s l s'

/-! ### A measure -/

def taskW : Task → Nat
  | .waiting => 3
  | .busy _ => 4
  | .writing _ => 1
  | .done _ => 0
  | .dropped => 0

def phaseW : JobPhase → Nat
  | .opened => 3
  | .manifest => 2
  | .running => 1
  | .returned _ => 0

def jobW : Option (JobState F) → Nat
  | none => 0
  | some J => phaseW J.phase + ∑ z ∈ Finset.range J.n, taskW (J.task z)

def idleW (b : Bool) : Nat := if b then 2 else 0

def masterW (A : Finset Bytes) (I : Finset Nat) (s : MState F) : Nat :=
  ∑ a ∈ A, idleW (s.idle a) + ∑ i ∈ I, jobW (s.job i)

theorem sum_upd {α β : Type} [DecidableEq α] (S : Finset α) (f : α → β) (g : β → Nat) (a : α) (b : β)
    (h : a ∈ S) : ∑ x ∈ S, g (upd f a b x) + g (f a) = ∑ x ∈ S, g (f x) + g b := by
  rw [← Finset.add_sum_erase S _ h, ← Finset.add_sum_erase S (fun x => g (f x)) h, upd_same]
  have : ∑ x ∈ S.erase a, g (upd f a b x) = ∑ x ∈ S.erase a, g (f x) := by
    apply Finset.sum_congr rfl
    intro x hx
    rw [upd_ne _ _ _ _ (Finset.ne_of_mem_erase hx)]
  rw [this]
  omega

/-- The agents and jobs the master knows; tasks beyond the number of slices are never touched; there is a
    current writer as soon as there is a job. -/
structure Known (A : Finset Bytes) (I : Finset Nat) (s : MState F) : Prop where
  idle : ∀ a, s.idle a = true → a ∈ A
  busy : ∀ a i z, Spec.Working s a i z → a ∈ A
  job : ∀ i J, s.job i = some J → i ∈ I
  tasks : ∀ i J, s.job i = some J → ∀ z, J.n ≤ z → J.task z = .waiting
  cur : ∀ i J, s.job i = some J → ∃ w, s.cur = some w

theorem jobW_set (J : JobState F) (z : Nat) (t : Task) (hz : z < J.n) :
    jobW (some (J.setTask z t)) + taskW (J.task z) = jobW (some J) + taskW t := by
  have := sum_upd (Finset.range J.n) J.task taskW z t (Finset.mem_range.mpr hz)
  unfold jobW JobState.setTask
  dsimp only
  unfold JobState.n at this ⊢
  dsimp only
  omega

theorem known_phase {A : Finset Bytes} {I : Finset Nat} {s : MState F} (h : Known A I s) (i : Nat)
    (J : JobState F) (hj : s.job i = some J) (p : JobPhase) (zip' : Nat → List Entry)
    (fin' : Nat → Option (List Entry)) :
    Known A I ⟨s.idle, s.cur, zip', fin', upd s.job i (some { J with phase := p })⟩ := by
  have hc : ∀ j K, upd s.job i (some { J with phase := p }) j = some K →
      ∃ K', s.job j = some K' ∧ K'.task = K.task ∧ K'.n = K.n := by
    intro j K hK
    by_cases he : j = i
    · subst he
      rw [upd_same] at hK
      injection hK with hK
      subst hK
      exact ⟨J, hj, rfl, rfl⟩
    · rw [upd_ne _ _ _ _ he] at hK
      exact ⟨K, hK, rfl, rfl⟩
  refine ⟨h.idle, ?_, ?_, ?_, ?_⟩
  · intro a j z hw
    rw [working_phase s _ _ _ _ i J _ hj] at hw
    exact h.busy a j z hw
  · intro j K hK
    obtain ⟨K', h1, _⟩ := hc j K hK
    exact h.job j K' h1
  · intro j K hK z hz
    obtain ⟨K', h1, h2, h3⟩ := hc j K hK
    rw [← h2]
    exact h.tasks j K' h1 z (by omega)
  · intro j K hK
    obtain ⟨K', h1, _⟩ := hc j K hK
    exact h.cur j K' h1

theorem known_task {A : Finset Bytes} {I : Finset Nat} {s : MState F} (h : Known A I s) (i z : Nat)
    (J : JobState F) (hj : s.job i = some J) (t : Task) (hz : z < J.n) (id' : Bytes → Bool)
    (hid : ∀ a, id' a = true → a ∈ A) (ht : ∀ a, t = .busy a → a ∈ A) (zip' : Nat → List Entry)
    (fin' : Nat → Option (List Entry)) :
    Known A I ⟨id', s.cur, zip', fin', upd s.job i (some (J.setTask z t))⟩ := by
  refine ⟨hid, ?_, ?_, ?_, ?_⟩
  · intro a j x hw
    rw [working_setTask s _ _ _ _ i z J _ hj] at hw
    split at hw
    · exact ht a hw
    · exact h.busy a j x hw
  · intro j K hK
    dsimp only at hK
    by_cases he : j = i
    · subst he; exact h.job j J hj
    · rw [upd_ne _ _ _ _ he] at hK; exact h.job j K hK
  · intro j K hK x hx
    dsimp only at hK
    by_cases he : j = i
    · subst he
      rw [upd_same] at hK
      injection hK with hK
      subst hK
      have hx' : J.n ≤ x := hx
      unfold JobState.setTask
      dsimp only
      rw [upd_ne _ _ _ _ (by omega)]
      exact h.tasks j J hj x hx'
    · rw [upd_ne _ _ _ _ he] at hK; exact h.tasks j K hK x hx
  · intro j K hK
    exact h.cur i J hj

/-- A slice in progress is one of the job's slices. -/
theorem known_lt {A : Finset Bytes} {I : Finset Nat} {s : MState F} (h : Known A I s) {i z : Nat}
    {J : JobState F} (hj : s.job i = some J) (ht : J.task z ≠ .waiting) : z < J.n := by
  by_contra hc
  exact ht (h.tasks i J hj z (by omega))

theorem quiet_step {A : Finset Bytes} {I : Finset Nat} {s s' : MState F} {l : MLabel F} (h : Known A I s)
    (hl : Spec.Quiet l) (hs : MStep s l s') : Known A I s' ∧ masterW A I s' + 1 ≤ masterW A I s := by
  cases hs with
  | register a => exact absurd rfl (hl.1 a)
  | start i r hj => exact absurd rfl (hl.2 i r)
  | manifest i w J hj hp hw =>
    refine ⟨known_phase h i J hj _ _ _, ?_⟩
    have := sum_upd I s.job jobW i (some { J with phase := .manifest }) (h.job i J hj)
    have e : jobW (some { J with phase := .manifest }) + 1 = jobW (s.job i) := by
      rw [hj]; unfold jobW; dsimp only; rw [hp]; unfold phaseW JobState.n; dsimp only; omega
    unfold masterW; dsimp only; omega
  | blanks i w J hj hp hw =>
    refine ⟨known_phase h i J hj _ _ _, ?_⟩
    have := sum_upd I s.job jobW i (some { J with phase := .running }) (h.job i J hj)
    have e : jobW (some { J with phase := .running }) + 1 = jobW (s.job i) := by
      rw [hj]; unfold jobW; dsimp only; rw [hp]; unfold phaseW JobState.n; dsimp only; omega
    unfold masterW; dsimp only; omega
  | finish i w J hj hp hall hw =>
    refine ⟨known_phase h i J hj _ _ _, ?_⟩
    generalize (if (s.final w).isSome then Reply.err
              else .svx (upd s.final w (some (s.zip w)) i)) = rep
    have := sum_upd I s.job jobW i (some { J with phase := .returned rep }) (h.job i J hj)
    have e : jobW (some { J with phase := .returned rep }) + 1 = jobW (s.job i) := by
      rw [hj]; unfold jobW; dsimp only; rw [hp]; unfold phaseW JobState.n; dsimp only; omega
    unfold masterW; dsimp only; omega
  | take i z a J hj hp hz ht ha =>
    refine ⟨known_task h i z J hj _ hz _ ?_ ?_ _ _, ?_⟩
    · intro b hb
      by_cases he : b = a
      · subst he; exact h.idle b ha
      · rw [upd_ne _ _ _ _ he] at hb; exact h.idle b hb
    · rintro b e; injection e with e; subst e; exact h.idle a ha
    · have h1 := sum_upd I s.job jobW i (some (J.setTask z (.busy a))) (h.job i J hj)
      have h2 := sum_upd A s.idle idleW a false (h.idle a ha)
      have h3 := jobW_set J z (.busy a) hz
      rw [hj] at h1
      rw [ht] at h3
      rw [ha] at h2
      have e1 : idleW true = 2 := rfl
      have e2 : idleW false = 0 := rfl
      have e3 : taskW .waiting = 3 := rfl
      have e4 : taskW (.busy a) = 4 := rfl
      unfold masterW; dsimp only; omega
  | dialErr i z a J hj ht =>
    have hz := known_lt h hj (z := z) (by rw [ht]; exact fun e => by cases e)
    refine ⟨known_task h i z J hj _ hz _ h.idle (by rintro b e; cases e) _ _, ?_⟩
    have h1 := sum_upd I s.job jobW i (some (J.setTask z .waiting)) (h.job i J hj)
    have h3 := jobW_set J z .waiting hz
    rw [hj] at h1
    rw [ht] at h3
    have e3 : taskW .waiting = 3 := rfl
    have e4 : taskW (.busy a) = 4 := rfl
    unfold masterW; dsimp only; omega
  | sliceErr i z a J hj ht =>
    have hz := known_lt h hj (z := z) (by rw [ht]; exact fun e => by cases e)
    refine ⟨known_task h i z J hj _ hz _ h.idle (by rintro b e; cases e) _ _, ?_⟩
    have h1 := sum_upd I s.job jobW i (some (J.setTask z .dropped)) (h.job i J hj)
    have h3 := jobW_set J z .dropped hz
    rw [hj] at h1
    rw [ht] at h3
    have e3 : taskW .dropped = 0 := rfl
    have e4 : taskW (.busy a) = 4 := rfl
    unfold masterW; dsimp only; omega
  | sliceOk i z a png J hj ht =>
    have hz := known_lt h hj (z := z) (by rw [ht]; exact fun e => by cases e)
    have hA : a ∈ A := h.busy a i z ⟨J, hj, ht⟩
    refine ⟨known_task h i z J hj _ hz _ ?_ (by rintro b e; cases e) _ _, ?_⟩
    · intro b hb
      by_cases he : b = a
      · subst he; exact hA
      · rw [upd_ne _ _ _ _ he] at hb; exact h.idle b hb
    have h1 := sum_upd I s.job jobW i (some (J.setTask z (.writing png))) (h.job i J hj)
    have h2 := sum_upd A s.idle idleW a true hA
    have h3 := jobW_set J z (.writing png) hz
    rw [hj] at h1
    rw [ht] at h3
    have e1 : idleW true = 2 := rfl
    have e3 : taskW (.writing png) = 1 := rfl
    have e4 : taskW (.busy a) = 4 := rfl
    unfold masterW; dsimp only; omega
  | write i z w png J hj ht hw =>
    have hz := known_lt h hj (z := z) (by rw [ht]; exact fun e => by cases e)
    refine ⟨known_task h i z J hj _ hz _ h.idle (by rintro b e; cases e) _ _, ?_⟩
    have h1 := sum_upd I s.job jobW i (some (J.setTask z (.done png))) (h.job i J hj)
    have h3 := jobW_set J z (.done png) hz
    rw [hj] at h1
    rw [ht] at h3
    have e3 : taskW (.done png) = 0 := rfl
    have e4 : taskW (.writing png) = 1 := rfl
    unfold masterW; dsimp only; omega

theorem reach_known {P : MState F → MLabel F → Prop} {s : MState F} (h : MReach P s) :
    ∃ A I, Known A I s := by
  induction h with
  | init =>
    exact ⟨∅, ∅, fun a h => (by cases h), fun a i z hh => (by obtain ⟨J, hJ, _⟩ := hh; cases hJ),
      fun i J hJ => (by cases hJ), fun i J hJ => (by cases hJ), fun i J hJ => (by cases hJ)⟩
  | @step s s' l _ hP hs ih =>
    obtain ⟨A, I, h⟩ := ih
    by_cases hl : Spec.Quiet l
    · exact ⟨A, I, (quiet_step h hl hs).1⟩
    · cases hs with
      | register a =>
        refine ⟨insert a A, I, ?_, ?_, h.job, h.tasks, h.cur⟩
        · intro b hb
          by_cases he : b = a
          · subst he; exact Finset.mem_insert_self _ _
          · dsimp only at hb
            rw [upd_ne _ _ _ _ he] at hb
            exact Finset.mem_insert_of_mem (h.idle b hb)
        · intro b i z hw
          exact Finset.mem_insert_of_mem (h.busy b i z hw)
      | start i r hj =>
        refine ⟨A, insert i I, h.idle, ?_, ?_, ?_, ?_⟩
        · intro a j z hw
          rw [working_start s _ _ _ _ i r _ hj] at hw
          exact h.busy a j z hw
        · intro j K hK
          dsimp only at hK
          by_cases he : j = i
          · subst he; exact Finset.mem_insert_self _ _
          · rw [upd_ne _ _ _ _ he] at hK
            exact Finset.mem_insert_of_mem (h.job j K hK)
        · intro j K hK z hz
          dsimp only at hK
          by_cases he : j = i
          · subst he
            rw [upd_same] at hK
            injection hK with hK
            subst hK
            rfl
          · rw [upd_ne _ _ _ _ he] at hK
            exact h.tasks j K hK z hz
        · intro j K hK
          exact ⟨i, rfl⟩
      | manifest i w J hj hp hw => exact absurd ⟨fun _ e => (by cases e), fun _ _ e => (by cases e)⟩ hl
      | blanks i w J hj hp hw => exact absurd ⟨fun _ e => (by cases e), fun _ _ e => (by cases e)⟩ hl
      | finish i w J hj hp hall hw => exact absurd ⟨fun _ e => (by cases e), fun _ _ e => (by cases e)⟩ hl
      | take i z a J hj hp hz ht ha => exact absurd ⟨fun _ e => (by cases e), fun _ _ e => (by cases e)⟩ hl
      | dialErr i z a J hj ht => exact absurd ⟨fun _ e => (by cases e), fun _ _ e => (by cases e)⟩ hl
      | sliceErr i z a J hj ht => exact absurd ⟨fun _ e => (by cases e), fun _ _ e => (by cases e)⟩ hl
      | sliceOk i z a png J hj ht => exact absurd ⟨fun _ e => (by cases e), fun _ _ e => (by cases e)⟩ hl
      | write i z w png J hj ht hw => exact absurd ⟨fun _ e => (by cases e), fun _ _ e => (by cases e)⟩ hl

/-- **C66.** From every reachable state, whatever the agents do and however often calls fail, the master
    can make only a bounded number of steps before an agent registers or a new job comes in: it never
    retries for ever. -/
theorem master_quiet_bounded {P : MState F → MLabel F → Prop} {s : MState F} (h : MReach P s) :
    ∃ B, ∀ n s', Spec.QuietRun s n s' → n ≤ B := by
  obtain ⟨A, I, hk⟩ := reach_known h
  refine ⟨masterW A I s, ?_⟩
  intro n s' hr
  clear h
  induction hr with
  | nil s => omega
  | cons hl hs _ ih =>
    obtain ⟨h1, h2⟩ := quiet_step hk hl hs
    have := ih h1
    omega

/-- **C66.** When it can make no more steps, every job has returned or is starved: a slice left to do and
    no agent, idle or working, known to the master. -/
theorem master_stuck_starved {P : MState F → MLabel F → Prop} {s : MState F} (h : MReach P s)
    (hst : Spec.Stuck s) (i : Nat) (J : JobState F) (hj : s.job i = some J) :
    (∃ r, J.phase = .returned r) ∨ Spec.Starved s i := by
  obtain ⟨A, I, hk⟩ := reach_known h
  obtain ⟨w, hw⟩ := hk.cur i J hj
  have hnb : ∀ a j z, ¬ Spec.Working s a j z := by
    rintro a j z ⟨K, hK, ht⟩
    exact hst _ _ ⟨fun _ e => (by cases e), fun _ _ e => (by cases e)⟩ (.sliceErr s j z a K hK ht)
  cases hp : J.phase with
  | opened => exact absurd (MStep.manifest s i w J hj hp hw) (hst _ _ ⟨fun _ e => (by cases e), fun _ _ e => (by cases e)⟩)
  | manifest => exact absurd (MStep.blanks s i w J hj hp hw) (hst _ _ ⟨fun _ e => (by cases e), fun _ _ e => (by cases e)⟩)
  | returned r => exact Or.inl ⟨r, rfl⟩
  | running =>
    right
    have hwait : ∃ z, z < J.n ∧ J.task z = .waiting := by
      by_contra hno
      refine hst _ _ ⟨fun _ e => (by cases e), fun _ _ e => (by cases e)⟩ (.finish s i w J hj hp ?_ hw)
      intro z hz
      cases ht : J.task z with
      | waiting => exact absurd ⟨z, hz, ht⟩ hno
      | busy a => exact absurd ⟨J, hj, ht⟩ (hnb a i z)
      | writing png =>
        exact absurd (MStep.write s i z w png J hj ht hw) (hst _ _ ⟨fun _ e => (by cases e), fun _ _ e => (by cases e)⟩)
      | done png => exact Or.inr ⟨png, rfl⟩
      | dropped => exact Or.inl rfl
    obtain ⟨z, hz, ht⟩ := hwait
    refine ⟨?_, hnb, J, z, hj, hp, hz, ht⟩
    intro a
    cases ha : s.idle a with
    | false => rfl
    | true =>
      exact absurd (MStep.take s i z a J hj hp hz ht ha) (hst _ _ ⟨fun _ e => (by cases e), fun _ _ e => (by cases e)⟩)

/-- A starved job is not one that returned: the two cases exclude each other. -/
theorem starved_not_returned (s : MState F) (i : Nat) (h : Spec.Starved s i) (J : JobState F)
    (hj : s.job i = some J) : ∀ r, J.phase ≠ .returned r := by
  obtain ⟨_, _, K, z, hK, hp, _⟩ := h
  rw [hj] at hK
  injection hK with hK
  subst hK
  intro r e
  rw [hp] at e
  cases e

/-- **C66.** So from every reachable state the master runs, without new registrations or jobs, into a
    state in which every job has returned or is starved. -/
theorem master_settles {P : MState F → MLabel F → Prop} {s : MState F} (h : MReach P s)
    (hP : ∀ t l, Spec.Quiet l → P t l) :
    ∃ n s', Spec.QuietRun s n s' ∧ MReach P s' ∧ Spec.Stuck s' ∧
      ∀ i J, s'.job i = some J → (∃ r, J.phase = .returned r) ∨ Spec.Starved s' i := by
  obtain ⟨A, I, hk⟩ := reach_known h
  generalize hm : masterW A I s = m
  induction m using Nat.strong_induction_on generalizing s with
  | _ m ih =>
    by_cases hst : Spec.Stuck s
    · exact ⟨0, s, .nil s, h, hst, fun i J hj => master_stuck_starved h hst i J hj⟩
    · unfold Spec.Stuck at hst
      push Not at hst
      obtain ⟨l, t, hl, hs⟩ := hst
      obtain ⟨h1, h2⟩ := quiet_step hk hl hs
      obtain ⟨n, u, hr, hu, hu2, hu3⟩ := ih _ (by omega) (.step h (hP s l hl) hs) h1 rfl
      exact ⟨n + 1, u, .cons hl hs hr, hu, hu2, hu3⟩

/-- `master_quiet_bounded`, `master_settles`, `master_stuck_starved` and `starved_not_returned` after a job was started with one agent: the
history can be carried on to a state in which nothing more can happen, and there the job has returned or is starved. -/
example : ∃ s : MState ℚ, MReach (fun _ _ => True) s ∧ (∃ J, s.job 0 = some J ∧ J.phase = .opened) ∧ (∃ B, ∀ n s', Spec.QuietRun s n s' → n ≤ B) ∧
    ∃ n s', Spec.QuietRun s n s' ∧ Spec.Stuck s' ∧ ∀ J, s'.job 0 = some J → ((∃ r, J.phase = .returned r) ∧ ¬ Spec.Starved s' 0 ∨ Spec.Starved s' 0) := by
  have r1 : MReach (fun _ _ => True) ({ MState.init with idle := upd (fun _ => false) [65] true } : MState ℚ) := .step .init trivial (.register _ [65])
  have r2 := MReach.step r1 trivial (.start _ 0 exReq rfl)
  obtain ⟨n, s', hq, hr, hst, -⟩ := master_settles r2 (fun _ _ _ => trivial)
  refine ⟨_, r2, ⟨_, rfl, rfl⟩, master_quiet_bounded r2, n, s', hq, hst, fun J hJ => ?_⟩
  by_cases h : Spec.Starved s' 0
  · exact .inr h
  · rcases master_stuck_starved hr hst 0 J hJ with h' | h'
    · exact .inl ⟨h', h⟩
    · exact (h h').elim

example : ∃ (s : MState ℚ) (J : JobState ℚ), s.job 0 = some J ∧ ∀ r, J.phase ≠ .returned r := by
  obtain ⟨s, -, hs⟩ := starved_reachable
  obtain ⟨J, -, hj, -⟩ := hs.2.2
  exact ⟨s, J, hj, starved_not_returned s 0 hs J hj⟩

end StlDice
