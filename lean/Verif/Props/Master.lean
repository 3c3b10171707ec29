import Verif.Model.Master
import Verif.Lemmas.Names

/-! # The stl2svx master (C43, C44, C46, C66) -/

namespace StlDice

variable {F : Type}

@[simp] theorem upd_same {α β : Type} [DecidableEq α] (f : α → β) (a : α) (b : β) : upd f a b a = b := by
  unfold upd; rw [if_pos rfl]

theorem upd_ne {α β : Type} [DecidableEq α] (f : α → β) (a x : α) (b : β) (h : x ≠ a) :
    upd f a b x = f x := by
  unfold upd; rw [if_neg h]

/-- Agent `a` is working on slice `z` of job `i`. -/
def Spec.Working (s : MState F) (a : Bytes) (i z : Nat) : Prop :=
  ∃ J, s.job i = some J ∧ J.task z = .busy a

/-! ## C43 -/

/-- An agent registers only while it is not working on a slice. -/
def Spec.RegistersIdle (s : MState F) (l : MLabel F) : Prop :=
  ∀ a, l = .register a → ∀ i z, ¬ Spec.Working s a i z

/-- Working after a step that changes job `i` only in task `z`. -/
theorem working_setTask (s : MState F) (id' : Bytes → Bool) (cur' : Option Nat) (zip' : Nat → List Entry)
    (fin' : Nat → Option (List Entry)) (i z : Nat) (J : JobState F) (t : Task) (h : s.job i = some J)
    (a : Bytes) (i' z' : Nat) :
    Spec.Working ⟨id', cur', zip', fin', upd s.job i (some (J.setTask z t))⟩ a i' z' ↔
      if i' = i ∧ z' = z then t = .busy a else Spec.Working s a i' z' := by
  unfold Spec.Working
  dsimp only
  by_cases hi : i' = i
  · subst hi
    rw [upd_same]
    by_cases hz : z' = z
    · subst hz
      rw [if_pos ⟨rfl, rfl⟩]
      constructor
      · rintro ⟨K, hK, ht⟩
        injection hK with hK
        subst hK
        unfold JobState.setTask at ht
        dsimp only at ht
        rw [upd_same] at ht
        exact ht
      · intro ht
        refine ⟨_, rfl, ?_⟩
        unfold JobState.setTask
        dsimp only
        rw [upd_same]
        exact ht
    · rw [if_neg (fun hh => hz hh.2), h]
      constructor
      · rintro ⟨K, hK, ht⟩
        injection hK with hK
        subst hK
        unfold JobState.setTask at ht
        dsimp only at ht
        rw [upd_ne _ _ _ _ hz] at ht
        exact ⟨J, rfl, ht⟩
      · rintro ⟨K, hK, ht⟩
        injection hK with hK
        subst hK
        refine ⟨_, rfl, ?_⟩
        unfold JobState.setTask
        dsimp only
        rw [upd_ne _ _ _ _ hz]
        exact ht
  · rw [if_neg (fun hh => hi hh.1), upd_ne _ _ _ _ hi]

/-- Working after a step that changes only the phase of job `i`. -/
theorem working_phase (s : MState F) (id' : Bytes → Bool) (cur' : Option Nat) (zip' : Nat → List Entry)
    (fin' : Nat → Option (List Entry)) (i : Nat) (J : JobState F) (p : JobPhase) (h : s.job i = some J)
    (a : Bytes) (i' z' : Nat) :
    Spec.Working ⟨id', cur', zip', fin', upd s.job i (some { J with phase := p })⟩ a i' z' ↔
      Spec.Working s a i' z' := by
  unfold Spec.Working
  dsimp only
  by_cases hi : i' = i
  · subst hi
    rw [upd_same, h]
    constructor
    · rintro ⟨K, hK, ht⟩
      injection hK with hK
      subst hK
      exact ⟨J, rfl, ht⟩
    · rintro ⟨K, hK, ht⟩
      injection hK with hK
      subst hK
      exact ⟨_, rfl, ht⟩
  · rw [upd_ne _ _ _ _ hi]

theorem working_start (s : MState F) (id' : Bytes → Bool) (cur' : Option Nat) (zip' : Nat → List Entry)
    (fin' : Nat → Option (List Entry)) (i : Nat) (r : SvxReq F) (p : JobPhase) (h : s.job i = none)
    (a : Bytes) (i' z' : Nat) :
    Spec.Working ⟨id', cur', zip', fin', upd s.job i (some ⟨r, p, fun _ => .waiting⟩)⟩ a i' z' ↔
      Spec.Working s a i' z' := by
  unfold Spec.Working
  dsimp only
  by_cases hi : i' = i
  · subst hi
    rw [upd_same, h]
    constructor
    · rintro ⟨K, hK, ht⟩
      injection hK with hK
      subst hK
      cases ht
    · rintro ⟨K, hK, ht⟩
      cases hK
  · rw [upd_ne _ _ _ _ hi]

/-- **C43.** In every state the master can reach, for any number of jobs, agents and registrations in
    any interleaving and with any failures: if agents register only while they are not working, no
    agent works on two slices (of the same or of different jobs) at once, and an agent in the idle
    map is not working. -/
theorem master_one_slice_per_agent (s : MState F) (h : MReach Spec.RegistersIdle s) :
    (∀ a i z i' z', Spec.Working s a i z → Spec.Working s a i' z' → i = i' ∧ z = z') ∧
    (∀ a i z, Spec.Working s a i z → s.idle a = false) := by
  induction h with
  | init =>
    constructor
    · rintro a i z i' z' ⟨J, hJ, _⟩; cases hJ
    · rintro a i z ⟨J, hJ, _⟩; cases hJ
  | @step s s' l _ hP hs ih =>
    obtain ⟨i1, i2⟩ := ih
    cases hs with
    | register a =>
      refine ⟨i1, ?_⟩
      intro b i z hw
      dsimp only
      have hne : b ≠ a := by
        rintro rfl
        exact hP b rfl i z hw
      rw [upd_ne _ _ _ _ hne]
      exact i2 b i z hw
    | start i r hj =>
      simp only [working_start s _ _ _ _ i r _ hj]
      exact ⟨i1, i2⟩
    | manifest i w J hj hp hw =>
      simp only [working_phase s _ _ _ _ i J _ hj]
      exact ⟨i1, i2⟩
    | blanks i w J hj hp hw =>
      simp only [working_phase s _ _ _ _ i J _ hj]
      exact ⟨i1, i2⟩
    | finish i w J hj hp hall hw =>
      simp only [working_phase s _ _ _ _ i J _ hj]
      exact ⟨i1, i2⟩
    | take i z a J hj hp hz ht ha =>
      have hno : ∀ i' z', ¬ Spec.Working s a i' z' := by
        intro i' z' hw
        have := i2 a i' z' hw
        rw [ha] at this; cases this
      simp only [working_setTask s _ _ _ _ i z J _ hj]
      constructor
      · intro b i1' z1 i2' z2 h1 h2
        split at h1 <;> split at h2
        · rename_i e1 e2
          exact ⟨e1.1.trans e2.1.symm, e1.2.trans e2.2.symm⟩
        · injection h1 with h1; subst h1; exact absurd h2 (hno _ _)
        · injection h2 with h2; subst h2; exact absurd h1 (hno _ _)
        · exact i1 b _ _ _ _ h1 h2
      · intro b i' z' hb
        split at hb
        · injection hb with hb; subst hb; rw [upd_same]
        · have hne : b ≠ a := by rintro rfl; exact hno _ _ hb
          rw [upd_ne _ _ _ _ hne]
          exact i2 b _ _ hb
    | dialErr i z a J hj ht =>
      simp only [working_setTask s _ _ _ _ i z J _ hj]
      constructor
      · intro b i1' z1 i2' z2 h1 h2
        split at h1 <;> split at h2
        · cases h1
        · cases h1
        · cases h2
        · exact i1 b _ _ _ _ h1 h2
      · intro b i' z' hb
        split at hb
        · cases hb
        · exact i2 b _ _ hb
    | sliceErr i z a J hj ht =>
      simp only [working_setTask s _ _ _ _ i z J _ hj]
      constructor
      · intro b i1' z1 i2' z2 h1 h2
        split at h1 <;> split at h2
        · cases h1
        · cases h1
        · cases h2
        · exact i1 b _ _ _ _ h1 h2
      · intro b i' z' hb
        split at hb
        · cases hb
        · exact i2 b _ _ hb
    | sliceOk i z a png J hj ht =>
      simp only [working_setTask s _ _ _ _ i z J _ hj]
      constructor
      · intro b i1' z1 i2' z2 h1 h2
        split at h1 <;> split at h2
        · cases h1
        · cases h1
        · cases h2
        · exact i1 b _ _ _ _ h1 h2
      · intro b i' z' hb
        split at hb
        · cases hb
        · rename_i hne
          have : b ≠ a := by
            rintro rfl
            have := i1 b _ _ _ _ hb ⟨J, hj, ht⟩
            exact hne this
          rw [upd_ne _ _ _ _ this]
          exact i2 b _ _ hb
    | write i z w png J hj ht hw =>
      simp only [working_setTask s _ _ _ _ i z J _ hj]
      constructor
      · intro b i1' z1 i2' z2 h1 h2
        split at h1 <;> split at h2
        · cases h1
        · cases h1
        · cases h2
        · exact i1 b _ _ _ _ h1 h2
      · intro b i' z' hb
        split at hb
        · cases hb
        · exact i2 b _ _ hb

/-! ## C44, C46 -/

/-- No job is started while another one is running. -/
def Spec.NoOverlap (s : MState F) (l : MLabel F) : Prop :=
  ∀ i r, l = .start i r → ∀ j J, s.job j = some J → ∃ rep, J.phase = .returned rep

/-- The images of the slices that were completed, in order of their number. -/
def doneSlices (i : Nat) (J : JobState F) : List Entry :=
  (List.range J.n).filterMap fun z =>
    match J.task z with
    | .done p => some (sliceEntry i J.req z p)
    | _ => none

/-- The entries written before the slices: the manifest and the two black images. -/
def headerEntries (i : Nat) (r : SvxReq F) : List Entry :=
  [manifestEntry i, blankEntry i r 0, blankEntry i r (r.L.dimZ + 1)]

def JobOk (cur : Option Nat) (fin : Option (List Entry)) (zip : List Entry) (i : Nat) (J : JobState F) : Prop :=
  (∀ z, J.n ≤ z → J.task z = .waiting) ∧
  match J.phase with
  | .opened => cur = some i ∧ fin = none ∧ zip = [] ∧ ∀ z, J.task z = .waiting
  | .manifest => cur = some i ∧ fin = none ∧ zip = [manifestEntry i] ∧ ∀ z, J.task z = .waiting
  | .running => cur = some i ∧ fin = none ∧
      ∃ es : List Entry, zip = headerEntries i J.req ++ es ∧ es.Perm (doneSlices i J)
  | .returned rep => (∀ z < J.n, J.task z = .dropped ∨ ∃ png, J.task z = .done png) ∧
      ∃ es : List Entry, rep = .svx (some (headerEntries i J.req ++ es)) ∧ es.Perm (doneSlices i J)

theorem filterMap_update {α : Type} (f f' : Nat → Option α) (z : Nat) (e : α) (n : Nat) (hz : z < n)
    (h0 : f z = none) (h1 : f' z = some e) (hne : ∀ x, x ≠ z → f' x = f x) :
    ((List.range n).filterMap f').Perm (e :: (List.range n).filterMap f) := by
  induction n with
  | zero => omega
  | succ n ih =>
    rw [List.range_succ, List.filterMap_append, List.filterMap_append]
    by_cases hn : z = n
    · subst hn
      have hcong : (List.range z).filterMap f' = (List.range z).filterMap f := by
        apply List.filterMap_congr
        intro x hx
        exact hne x (by have := List.mem_range.mp hx; omega)
      rw [hcong]
      simp only [List.filterMap_cons, List.filterMap_nil, h0, h1, List.append_nil]
      exact (List.perm_append_singleton e _)
    · have ih := ih (by omega)
      have : [n].filterMap f' = [n].filterMap f := by
        simp only [List.filterMap_cons, List.filterMap_nil, hne n (Ne.symm hn)]
      rw [this]
      exact ih.append_right _

theorem doneSlices_set (i z : Nat) (J : JobState F) (t : Task)
    (h : ∀ p, J.task z ≠ .done p) (ht : ∀ p, t ≠ .done p) :
    doneSlices i (J.setTask z t) = doneSlices i J := by
  unfold doneSlices JobState.setTask JobState.n
  dsimp only
  apply List.filterMap_congr
  intro x _
  by_cases hx : x = z
  · subst hx
    rw [upd_same]
    have e1 : (match t with | .done p => some (sliceEntry i J.req x p) | _ => none) = none := by
      cases t with
      | done p => exact absurd rfl (ht p)
      | _ => rfl
    have e2 : (match J.task x with | .done p => some (sliceEntry i J.req x p) | _ => none) = none := by
      cases hh : J.task x with
      | done p => exact absurd hh (h p)
      | _ => rfl
    rw [e1, e2]
  · rw [upd_ne _ _ _ _ hx]

theorem doneSlices_done (i z : Nat) (J : JobState F) (p : Bytes) (hz : z < J.n)
    (h : J.task z = .writing p) :
    (doneSlices i (J.setTask z (.done p))).Perm (sliceEntry i J.req z p :: doneSlices i J) := by
  unfold doneSlices
  refine filterMap_update _ _ z _ _ hz ?_ ?_ ?_
  · rw [h]
  · unfold JobState.setTask
    dsimp only
    rw [upd_same]
  · intro x hx
    unfold JobState.setTask
    dsimp only
    rw [upd_ne _ _ _ _ hx]

/-- Changing a task that is in progress keeps a job in order, when the number of completed slices is
    unchanged. -/
theorem jobOk_setTask (cur : Option Nat) (fin : Option (List Entry)) (zip : List Entry) (i z : Nat)
    (J : JobState F) (t : Task) (h : JobOk cur fin zip i J) (hp : ∀ r, J.phase ≠ .returned r)
    (hrun : J.phase = .running) (hz : z < J.n) (hd : ∀ p, J.task z ≠ .done p) (ht : ∀ p, t ≠ .done p) :
    JobOk cur fin zip i (J.setTask z t) := by
  obtain ⟨h1, h2⟩ := h
  refine ⟨?_, ?_⟩
  · intro x hx
    unfold JobState.setTask
    dsimp only
    have : x ≠ z := by
      have : (J.setTask z t).n = J.n := rfl
      omega
    rw [upd_ne _ _ _ _ this]
    exact h1 x hx
  · have e : (J.setTask z t).phase = J.phase := rfl
    rw [e]
    rw [hrun] at h2 ⊢
    dsimp only at h2 ⊢
    rw [doneSlices_set i z J t hd ht]
    exact h2

/-- A task is in progress only while its job runs. -/
theorem jobOk_active {cur : Option Nat} {fin : Option (List Entry)} {zip : List Entry} {i z : Nat}
    {J : JobState F} (h : JobOk cur fin zip i J) (hb : (∃ a, J.task z = .busy a) ∨ ∃ p, J.task z = .writing p) :
    J.phase = .running ∧ z < J.n ∧ cur = some i := by
  obtain ⟨h1, h2⟩ := h
  have hnw : J.task z ≠ .waiting := by
    rcases hb with ⟨a, e⟩ | ⟨a, e⟩ <;> rw [e] <;> exact fun h => by cases h
  have hz : z < J.n := by
    by_contra hc
    exact hnw (h1 z (by omega))
  cases hp : J.phase with
  | opened => rw [hp] at h2; exact absurd (h2.2.2.2 z) hnw
  | manifest => rw [hp] at h2; exact absurd (h2.2.2.2 z) hnw
  | running => rw [hp] at h2; exact ⟨rfl, hz, h2.1⟩
  | returned r =>
    rw [hp] at h2
    rcases h2.1 z hz with e | ⟨p, e⟩
    · rcases hb with ⟨a, e'⟩ | ⟨a, e'⟩ <;> rw [e] at e' <;> cases e'
    · rcases hb with ⟨a, e'⟩ | ⟨a, e'⟩ <;> rw [e] at e' <;> cases e'

/-- What a returned job is does not depend on the rest of the master. -/
theorem jobOk_returned {cur cur' : Option Nat} {fin fin' : Option (List Entry)} {zip zip' : List Entry}
    {i : Nat} {J : JobState F} (h : JobOk cur fin zip i J) (hr : ∃ r, J.phase = .returned r) : JobOk cur' fin' zip' i J := by
  obtain ⟨h1, h2⟩ := h
  obtain ⟨r, hr⟩ := hr
  refine ⟨h1, ?_⟩
  rw [hr] at h2 ⊢
  exact h2

/-- Only the current job is running. -/
theorem jobOk_cur {cur : Option Nat} {fin : Option (List Entry)} {zip : List Entry} {i : Nat}
    {J : JobState F} (h : JobOk cur fin zip i J) : cur = some i ∨ ∃ r, J.phase = .returned r := by
  obtain ⟨_, h2⟩ := h
  cases hp : J.phase with
  | opened => rw [hp] at h2; exact Or.inl h2.1
  | manifest => rw [hp] at h2; exact Or.inl h2.1
  | running => rw [hp] at h2; exact Or.inl h2.1
  | returned r => exact Or.inr ⟨r, rfl⟩

theorem master_inv (s : MState F) (h : MReach Spec.NoOverlap s) :
    (∀ i J, s.job i = some J → JobOk s.cur (s.final i) (s.zip i) i J) ∧
    (∀ i, s.job i = none → s.zip i = [] ∧ s.final i = none) := by
  induction h with
  | init =>
    exact ⟨fun i J hJ => by (cases hJ), fun i _ => ⟨rfl, rfl⟩⟩
  | @step s s' l _ hP hs ih =>
    obtain ⟨i1, i2⟩ := ih
    -- a job other than the current one has returned
    have others : ∀ i, s.cur = some i → ∀ j J, j ≠ i → s.job j = some J → ∃ r, J.phase = .returned r := by
      intro i hc j J hne hj
      rcases jobOk_cur (i1 j J hj) with h | h
      · rw [hc] at h
        injection h with h
        exact absurd h.symm hne
      · exact h
    have none_ne : ∀ (i j : Nat) (x : Option (JobState F)) , (∃ K, x = some K) → upd s.job i x j = none →
        j ≠ i ∧ s.job j = none := by
      rintro i j x ⟨K, rfl⟩ hj
      have : j ≠ i := by
        rintro rfl
        rw [upd_same] at hj
        cases hj
      rw [upd_ne _ _ _ _ this] at hj
      exact ⟨this, hj⟩
    cases hs with
    | register a => exact ⟨i1, i2⟩
    | start i r hj =>
      dsimp only
      refine ⟨?_, ?_⟩
      · intro j K hK
        by_cases he : j = i
        · subst he
          rw [upd_same] at hK
          injection hK with hK
          subst hK
          obtain ⟨z1, z2⟩ := i2 j hj
          refine ⟨fun _ _ => rfl, rfl, z2, z1, fun _ => rfl⟩
        · rw [upd_ne _ _ _ _ he] at hK
          exact jobOk_returned (i1 j K hK) (hP i r rfl j K hK)
      · intro j hn
        exact i2 j (none_ne i j _ ⟨_, rfl⟩ hn).2
    | manifest i w J hj hp hw =>
      dsimp only
      obtain ⟨q1, q2⟩ := i1 i J hj
      rw [hp] at q2
      obtain ⟨q3, q4, q5, q6⟩ := q2
      rw [hw] at q3
      injection q3 with q3
      subst q3
      refine ⟨?_, ?_⟩
      · intro j K hK
        by_cases he : j = w
        · subst he
          rw [upd_same] at hK
          injection hK with hK
          subst hK
          rw [upd_same, q5]
          exact ⟨q1, hw, q4, rfl, q6⟩
        · rw [upd_ne _ _ _ _ he] at hK
          exact jobOk_returned (i1 j K hK) (others w hw j K he hK)
      · intro j hn
        obtain ⟨a, b⟩ := none_ne w j _ ⟨_, rfl⟩ hn
        rw [upd_ne _ _ _ _ a]
        exact i2 j b
    | blanks i w J hj hp hw =>
      dsimp only
      obtain ⟨q1, q2⟩ := i1 i J hj
      rw [hp] at q2
      obtain ⟨q3, q4, q5, q6⟩ := q2
      rw [hw] at q3
      injection q3 with q3
      subst q3
      refine ⟨?_, ?_⟩
      · intro j K hK
        by_cases he : j = w
        · subst he
          rw [upd_same] at hK
          injection hK with hK
          subst hK
          rw [upd_same, q5]
          refine ⟨q1, hw, q4, [], rfl, ?_⟩
          have : doneSlices j ({ J with phase := .running } : JobState F) = [] := by
            unfold doneSlices
            rw [List.filterMap_eq_nil_iff]
            intro x _
            dsimp only
            rw [q6 x]
          rw [this]
        · rw [upd_ne _ _ _ _ he] at hK
          exact jobOk_returned (i1 j K hK) (others w hw j K he hK)
      · intro j hn
        obtain ⟨a, b⟩ := none_ne w j _ ⟨_, rfl⟩ hn
        rw [upd_ne _ _ _ _ a]
        exact i2 j b
    | finish i w J hj hp hall hw =>
      dsimp only
      obtain ⟨q1, q2⟩ := i1 i J hj
      rw [hp] at q2
      obtain ⟨q3, q4, es, q5, q6⟩ := q2
      rw [hw] at q3
      injection q3 with q3
      subst q3
      rw [q4]
      refine ⟨?_, ?_⟩
      · intro j K hK
        by_cases he : j = w
        · subst he
          rw [upd_same] at hK
          injection hK with hK
          subst hK
          refine ⟨q1, ?_⟩
          dsimp only
          refine ⟨hall, es, ?_, q6⟩
          rw [upd_same, q5]
          rfl
        · rw [upd_ne _ _ _ _ he] at hK
          exact jobOk_returned (i1 j K hK) (others w hw j K he hK)
      · intro j hn
        obtain ⟨a, b⟩ := none_ne w j _ ⟨_, rfl⟩ hn
        refine ⟨(i2 j b).1, ?_⟩
        rw [if_neg (by simp), upd_ne _ _ _ _ a]
        exact (i2 j b).2
    | take i z a J hj hp hz ht ha =>
      dsimp only
      refine ⟨?_, fun j hn => i2 j (none_ne i j _ ⟨_, rfl⟩ hn).2⟩
      intro j K hK
      by_cases he : j = i
      · subst he
        rw [upd_same] at hK
        injection hK with hK
        subst hK
        refine jobOk_setTask _ _ _ _ _ J _ (i1 j J hj) ?_ hp hz ?_ ?_
        · intro r hr; rw [hp] at hr; cases hr
        · intro p hh; rw [ht] at hh; cases hh
        · intro p hh; cases hh
      · rw [upd_ne _ _ _ _ he] at hK
        exact i1 j K hK
    | dialErr i z a J hj ht =>
      dsimp only
      refine ⟨?_, fun j hn => i2 j (none_ne i j _ ⟨_, rfl⟩ hn).2⟩
      intro j K hK
      by_cases he : j = i
      · subst he
        rw [upd_same] at hK
        injection hK with hK
        subst hK
        obtain ⟨hp, hz, _⟩ := jobOk_active (i1 j J hj) (Or.inl ⟨a, ht⟩)
        refine jobOk_setTask _ _ _ _ _ J _ (i1 j J hj) ?_ hp hz ?_ ?_
        · intro r hr; rw [hp] at hr; cases hr
        · intro p hh; rw [ht] at hh; cases hh
        · intro p hh; cases hh
      · rw [upd_ne _ _ _ _ he] at hK
        exact i1 j K hK
    | sliceErr i z a J hj ht =>
      dsimp only
      refine ⟨?_, fun j hn => i2 j (none_ne i j _ ⟨_, rfl⟩ hn).2⟩
      intro j K hK
      by_cases he : j = i
      · subst he
        rw [upd_same] at hK
        injection hK with hK
        subst hK
        obtain ⟨hp, hz, _⟩ := jobOk_active (i1 j J hj) (Or.inl ⟨a, ht⟩)
        refine jobOk_setTask _ _ _ _ _ J _ (i1 j J hj) ?_ hp hz ?_ ?_
        · intro r hr; rw [hp] at hr; cases hr
        · intro p hh; rw [ht] at hh; cases hh
        · intro p hh; cases hh
      · rw [upd_ne _ _ _ _ he] at hK
        exact i1 j K hK
    | sliceOk i z a png J hj ht =>
      dsimp only
      refine ⟨?_, fun j hn => i2 j (none_ne i j _ ⟨_, rfl⟩ hn).2⟩
      intro j K hK
      by_cases he : j = i
      · subst he
        rw [upd_same] at hK
        injection hK with hK
        subst hK
        obtain ⟨hp, hz, _⟩ := jobOk_active (i1 j J hj) (Or.inl ⟨a, ht⟩)
        refine jobOk_setTask _ _ _ _ _ J _ (i1 j J hj) ?_ hp hz ?_ ?_
        · intro r hr; rw [hp] at hr; cases hr
        · intro p hh; rw [ht] at hh; cases hh
        · intro p hh; cases hh
      · rw [upd_ne _ _ _ _ he] at hK
        exact i1 j K hK
    | write i z w png J hj ht hw =>
      dsimp only
      obtain ⟨hp, hz, hc⟩ := jobOk_active (i1 i J hj) (Or.inr ⟨png, ht⟩)
      obtain ⟨q1, q2⟩ := i1 i J hj
      rw [hp] at q2
      obtain ⟨q3, q4, es, q5, q6⟩ := q2
      rw [hw] at q3
      injection q3 with q3
      subst q3
      refine ⟨?_, ?_⟩
      · intro j K hK
        by_cases he : j = w
        · subst he
          rw [upd_same] at hK
          injection hK with hK
          subst hK
          rw [upd_same, q5]
          refine ⟨?_, ?_⟩
          · intro x hx
            unfold JobState.setTask
            dsimp only
            have : x ≠ z := by
              have : (J.setTask z (.done png)).n = J.n := rfl
              omega
            rw [upd_ne _ _ _ _ this]
            exact q1 x hx
          · have e : (J.setTask z (.done png)).phase = .running := hp
            rw [e]
            dsimp only
            refine ⟨hw, q4, es ++ [sliceEntry j J.req z png], ?_, ?_⟩
            · rw [List.append_assoc]; rfl
            · exact ((List.perm_append_singleton _ _).trans (q6.cons _)).trans
                (doneSlices_done j z J png hz ht).symm
        · rw [upd_ne _ _ _ _ he] at hK
          exact jobOk_returned (i1 j K hK) (others w hw j K he hK)
      · intro j hn
        obtain ⟨a, b⟩ := none_ne w j _ ⟨_, rfl⟩ hn
        rw [upd_ne _ _ _ _ a]
        exact i2 j b

/-- **C44, C46.** When jobs do not overlap, for any interleaving of slices, agents and registrations and
    any failures: a job that has returned has returned a readable SVX file; every slice was either
    completed or dropped; and the file holds exactly the manifest, the two black images and the
    images of the completed slices, each once, all of this job. -/
theorem job_reply_exact (s : MState F) (h : MReach Spec.NoOverlap s) (i : Nat) (J : JobState F)
    (hj : s.job i = some J) (rep : Reply) (hp : J.phase = .returned rep) :
    (∀ z < J.n, J.task z = .dropped ∨ ∃ png, J.task z = .done png) ∧
    ∃ es : List Entry, rep = .svx (some (headerEntries i J.req ++ es)) ∧ es.Perm (doneSlices i J) := by
  obtain ⟨_, h2⟩ := (master_inv s h).1 i J hj
  rw [hp] at h2
  exact h2

/-- **C44.** When jobs do not overlap and no `SliceJob` call of the job failed, the file of a job that has
    returned holds, besides the manifest, exactly one image for each of the numbers `0 … DimZ + 1`,
    and those of the slices are the images the agents returned. -/
theorem job_complete (s : MState F) (h : MReach Spec.NoOverlap s) (i : Nat) (J : JobState F)
    (hj : s.job i = some J) (rep : Reply) (hp : J.phase = .returned rep)
    (hok : ∀ z < J.n, J.task z ≠ .dropped) (hpos : 0 ≤ J.req.L.dimZ) :
    ∃ (zip : List Entry) (png : Nat → Bytes), rep = .svx (some zip) ∧
      (∀ z < J.n, J.task z = .done (png z)) ∧
      zip.Perm (manifestEntry i :: blankEntry i J.req 0 :: blankEntry i J.req (J.req.L.dimZ + 1) ::
        (List.range J.n).map fun z => sliceEntry i J.req z (png z)) ∧
      (zip.map (·.name)).Perm (ascii "manifest.xml" :: (List.range (J.n + 2)).map fun k =>
        sliceName J.req.Dim J.req.NX J.req.NY J.req.NZ (k : Nat)) := by
  obtain ⟨h1, es, h2, h3⟩ := job_reply_exact s h i J hj rep hp
  let png : Nat → Bytes := fun z => match J.task z with | .done p => p | _ => []
  have hpng : ∀ z < J.n, J.task z = .done (png z) := by
    intro z hz
    rcases h1 z hz with e | ⟨p, e⟩
    · exact absurd e (hok z hz)
    · show J.task z = .done (match J.task z with | .done p => p | _ => [])
      rw [e]
  have hds : doneSlices i J = (List.range J.n).map fun z => sliceEntry i J.req z (png z) := by
    unfold doneSlices
    rw [← List.filterMap_eq_map]
    apply List.filterMap_congr
    intro z hz
    rw [hpng z (List.mem_range.mp hz)]
    rfl
  rw [hds] at h3
  have hperm : (headerEntries i J.req ++ es).Perm (manifestEntry i :: blankEntry i J.req 0 ::
      blankEntry i J.req (J.req.L.dimZ + 1) ::
        (List.range J.n).map fun z => sliceEntry i J.req z (png z)) := by
    unfold headerEntries
    exact (((h3.cons _).cons _).cons _)
  refine ⟨_, png, h2, hpng, hperm, (hperm.map _).trans ?_⟩
  have hn : (J.n : Int) = J.req.L.dimZ := by
    unfold JobState.n
    exact Int.toNat_of_nonneg hpos
  rw [List.map_cons, List.map_cons, List.map_cons, List.map_map]
  refine List.Perm.cons _ ?_
  have hr : (List.range (J.n + 2)).map (fun k : Nat => sliceName J.req.Dim J.req.NX J.req.NY J.req.NZ (k : Nat)) =
      sliceName J.req.Dim J.req.NX J.req.NY J.req.NZ 0 ::
        (((List.range J.n).map fun k : Nat => sliceName J.req.Dim J.req.NX J.req.NY J.req.NZ (k + 1)) ++
          [sliceName J.req.Dim J.req.NX J.req.NY J.req.NZ (J.req.L.dimZ + 1)]) := by
    rw [List.range_succ_eq_map, List.map_cons, List.map_map, List.range_succ, List.map_append]
    have e1 : ((J.n : Int) + 1) = J.req.L.dimZ + 1 := by rw [hn]
    simp only [List.map_cons, List.map_nil, Function.comp_def, Nat.cast_succ, Nat.cast_zero, e1]
  rw [hr]
  refine List.Perm.cons _ ?_
  exact (List.perm_append_singleton _ _).symm

/-! ## Histories that go wrong -/

/-- One step, computed; used only to build concrete histories. -/
def exec (s : MState F) : MLabel F → Option (MState F)
  | .register a => some { s with idle := upd s.idle a true }
  | .start i r =>
    match s.job i with
    | some _ => none
    | none => some { s with cur := some i, job := upd s.job i (some ⟨r, .opened, fun _ => .waiting⟩) }
  | .manifest i =>
    match s.job i, s.cur with
    | some J, some w =>
      if J.phase = .opened then
        some { s with zip := upd s.zip w (s.zip w ++ [manifestEntry i]),
                      job := upd s.job i (some { J with phase := .manifest }) }
      else none
    | _, _ => none
  | .blanks i =>
    match s.job i, s.cur with
    | some J, some w =>
      if J.phase = .manifest then
        some { s with zip := upd s.zip w (s.zip w ++ [blankEntry i J.req 0, blankEntry i J.req (J.req.L.dimZ + 1)]),
                      job := upd s.job i (some { J with phase := .running }) }
      else none
    | _, _ => none
  | .take i z a =>
    match s.job i with
    | some J =>
      if J.phase = .running ∧ z < J.n ∧ J.task z = .waiting ∧ s.idle a = true then
        some { s with idle := upd s.idle a false, job := upd s.job i (some (J.setTask z (.busy a))) }
      else none
    | none => none
  | .dialErr i z =>
    match s.job i with
    | some J =>
      match J.task z with
      | .busy _ => some { s with job := upd s.job i (some (J.setTask z .waiting)) }
      | _ => none
    | none => none
  | .sliceOk i z png =>
    match s.job i with
    | some J =>
      match J.task z with
      | .busy a => some { s with idle := upd s.idle a true, job := upd s.job i (some (J.setTask z (.writing png))) }
      | _ => none
    | none => none
  | .sliceErr i z =>
    match s.job i with
    | some J =>
      match J.task z with
      | .busy _ => some { s with job := upd s.job i (some (J.setTask z .dropped)) }
      | _ => none
    | none => none
  | .write i z =>
    match s.job i, s.cur with
    | some J, some w =>
      match J.task z with
      | .writing png =>
        some { s with zip := upd s.zip w (s.zip w ++ [sliceEntry i J.req z png]),
                      job := upd s.job i (some (J.setTask z (.done png))) }
      | _ => none
    | _, _ => none
  | .finish i =>
    match s.job i, s.cur with
    | some J, some w =>
      if J.phase = .running ∧ (List.range J.n).all (fun z => match J.task z with
          | .dropped => true | .done _ => true | _ => false) = true then
        some { s with
          final := if (s.final w).isSome then s.final else upd s.final w (some (s.zip w)),
          job := upd s.job i (some { J with
            phase := .returned (if (s.final w).isSome then .err
              else .svx (upd s.final w (some (s.zip w)) i)) }) }
      else none
    | _, _ => none

theorem exec_sound (s s' : MState F) (l : MLabel F) (h : exec s l = some s') : MStep s l s' := by
  cases l with
  | register a =>
    simp only [exec, Option.some.injEq] at h; subst h; exact .register s a
  | start i r =>
    simp only [exec] at h
    split at h
    · cases h
    · injection h with h; subst h; exact .start s i r (by assumption)
  | manifest i =>
    simp only [exec] at h
    split at h
    · split at h
      · injection h with h; subst h; exact .manifest s i _ _ (by assumption) (by assumption) (by assumption)
      · cases h
    · cases h
  | blanks i =>
    simp only [exec] at h
    split at h
    · split at h
      · injection h with h; subst h; exact .blanks s i _ _ (by assumption) (by assumption) (by assumption)
      · cases h
    · cases h
  | take i z a =>
    simp only [exec] at h
    split at h
    · split at h
      · rename_i hc
        injection h with h; subst h
        exact .take s i z a _ (by assumption) hc.1 hc.2.1 hc.2.2.1 hc.2.2.2
      · cases h
    · cases h
  | dialErr i z =>
    simp only [exec] at h
    split at h
    · split at h
      · injection h with h; subst h; exact .dialErr s i z _ _ (by assumption) (by assumption)
      · cases h
    · cases h
  | sliceOk i z png =>
    simp only [exec] at h
    split at h
    · split at h
      · injection h with h; subst h; exact .sliceOk s i z _ png _ (by assumption) (by assumption)
      · cases h
    · cases h
  | sliceErr i z =>
    simp only [exec] at h
    split at h
    · split at h
      · injection h with h; subst h; exact .sliceErr s i z _ _ (by assumption) (by assumption)
      · cases h
    · cases h
  | write i z =>
    simp only [exec] at h
    split at h
    · split at h
      · injection h with h; subst h; exact .write s i z _ _ _ (by assumption) (by assumption) (by assumption)
      · cases h
    · cases h
  | finish i =>
    simp only [exec] at h
    split at h
    · split at h
      · rename_i hc
        injection h with h; subst h
        refine .finish s i _ _ (by assumption) hc.1 ?_ (by assumption)
        intro z hz
        have := List.all_eq_true.mp hc.2 z (List.mem_range.mpr hz)
        split at this
        · exact Or.inl (by assumption)
        · exact Or.inr ⟨_, by assumption⟩
        · cases this
      · cases h
    · cases h

/-- A history, computed. -/
def execAll (s : MState F) : List (MLabel F) → Option (MState F)
  | [] => some s
  | l :: ls => (exec s l).bind fun s' => execAll s' ls

theorem execAll_reach {P : MState F → MLabel F → Prop} (ls : List (MLabel F)) :
    ∀ s s' : MState F, MReach P s → execAll s ls = some s' → (∀ t, ∀ l ∈ ls, P t l) → MReach P s' := by
  induction ls with
  | nil => intro s s' h he _; simp only [execAll, Option.some.injEq] at he; subst he; exact h
  | cons l ls ih =>
    intro s s' h he hP
    simp only [execAll] at he
    cases hx : exec s l with
    | none => rw [hx] at he; cases he
    | some t =>
      rw [hx] at he
      exact ih t s' (.step h (hP s l List.mem_cons_self) (exec_sound s t l hx)) he
        (fun t' l' hl' => hP t' l' (List.mem_cons_of_mem _ hl'))

/-- What can be read off a computed history. -/
theorem execAll_some {α : Type} [DecidableEq α] (ls : List (MLabel ℚ)) (f : MState ℚ → α) (v : α)
    (h : (execAll MState.init ls).map f = some v) :
    ∃ s, execAll MState.init ls = some s ∧ f s = v := by
  cases hx : execAll MState.init ls with
  | none => rw [hx] at h; cases h
  | some s => rw [hx] at h; injection h with h; exact ⟨s, rfl, h⟩

/-- A model of two slices. -/
def exReq : SvxReq ℚ := ⟨2, 1, 1, 1, ascii "out", ⟨1, 1, 2, 2, 2, 2, 2, 2, 2⟩, ⟨⟨0, 0, 0⟩, ⟨2, 2, 2⟩⟩⟩

def exTask (s : MState ℚ) (i z : Nat) : Option Task := (s.job i).map fun J => J.task z

def exPhase (s : MState ℚ) (i : Nat) : Option JobPhase := (s.job i).map fun J => J.phase

theorem exTask_working (s : MState ℚ) (i z : Nat) (a : Bytes) (h : exTask s i z = some (.busy a)) :
    Spec.Working s a i z := by
  unfold exTask at h
  cases hj : s.job i with
  | none => rw [hj] at h; cases h
  | some J => rw [hj] at h; injection h with h; exact ⟨J, hj, h⟩

/-- **C43 (violated without the assumption).** An agent that registers again while it works on a slice is
    given a second one. -/
theorem reregister_double_books : ∃ s : MState ℚ, MReach (fun _ _ => True) s ∧
    Spec.Working s [65] 0 0 ∧ Spec.Working s [65] 0 1 := by
  obtain ⟨s, h1, h2⟩ := execAll_some
    [.register [65], .start 0 exReq, .manifest 0, .blanks 0, .take 0 0 [65], .register [65], .take 0 1 [65]]
    (fun s => (exTask s 0 0, exTask s 0 1)) (some (.busy [65]), some (.busy [65])) (by decide +kernel)
  injection h2 with h2 h3
  exact ⟨s, execAll_reach _ _ _ .init h1 (fun _ _ _ => trivial), exTask_working _ _ _ _ h2, exTask_working _ _ _ _ h3⟩

/-- **C44 (violated by the code).** A failed `SliceJob` call: the job still returns a readable SVX file
    as if it had succeeded, but without the slice. -/
theorem failed_slice_missing : ∃ s : MState ℚ, MReach Spec.NoOverlap s ∧
    exPhase s 0 = some (.returned (.svx (some
      [manifestEntry 0, blankEntry 0 exReq 0, blankEntry 0 exReq 3, sliceEntry 0 exReq 1 [80]]))) := by
  obtain ⟨s, h1, h2⟩ := execAll_some
    [.start 0 exReq, .register [65], .register [66], .manifest 0, .blanks 0, .take 0 0 [65], .take 0 1 [66],
      .sliceErr 0 0, .sliceOk 0 1 [80], .write 0 1, .finish 0]
    (fun s => exPhase s 0)
    (some (.returned (.svx (some
      [manifestEntry 0, blankEntry 0 exReq 0, blankEntry 0 exReq 3, sliceEntry 0 exReq 1 [80]])))) (by decide +kernel)
  refine ⟨s, ?_, h2⟩
  simp only [execAll] at h1
  cases hx : exec (MState.init : MState ℚ) (.start 0 exReq) with
  | none => rw [hx] at h1; cases h1
  | some t =>
    rw [hx] at h1
    have ht : MReach Spec.NoOverlap t := by
      refine .step .init ?_ (exec_sound _ _ _ hx)
      intro i r _ j J hJ
      cases hJ
    refine execAll_reach (P := Spec.NoOverlap) [.register [65], .register [66], .manifest 0, .blanks 0, .take 0 0 [65], .take 0 1 [66],
      .sliceErr 0 0, .sliceOk 0 1 [80], .write 0 1, .finish 0] t s ht h1 ?_
    intro t' l hl i r he
    subst he
    simp at hl

/-- **C46 (violated by the code).** Two jobs that overlap: the first one's images go into the second one's
    file, the first gets an unreadable file and the second an error. -/
theorem overlapping_jobs_mix : ∃ s : MState ℚ, MReach (fun _ _ => True) s ∧
    exPhase s 0 = some (.returned (.svx none)) ∧ exPhase s 1 = some (.returned .err) ∧
    sliceEntry 0 exReq 0 [80] ∈ s.zip 1 := by
  obtain ⟨s, h1, h2⟩ := execAll_some
    [.register [65], .register [66], .start 0 exReq, .manifest 0, .blanks 0, .take 0 0 [65], .take 0 1 [66],
      .start 1 exReq, .manifest 1, .blanks 1, .sliceOk 0 0 [80], .sliceOk 0 1 [81], .write 0 0, .write 0 1, .finish 0,
      .take 1 0 [65], .take 1 1 [66], .sliceOk 1 0 [82], .sliceOk 1 1 [83], .write 1 0, .write 1 1, .finish 1]
    (fun s => (exPhase s 0, exPhase s 1, decide (sliceEntry 0 exReq 0 [80] ∈ s.zip 1)))
    (some (.returned (.svx none)), some (.returned .err), true) (by decide +kernel)
  simp only [Prod.mk.injEq, decide_eq_true_eq] at h2
  exact ⟨s, execAll_reach _ _ _ .init h1 (fun _ _ _ => trivial), h2⟩

/-- **C46 (violated by the code).** If the second job's slices are all done when the first finishes, it is
    the second job that is lost while the first returns something unreadable; if the second finishes
    first, it returns a readable file with images of the first job in it. -/
theorem overlapping_jobs_foreign_images : ∃ s : MState ℚ, MReach (fun _ _ => True) s ∧
    exPhase s 1 = some (.returned (.svx (some
      [manifestEntry 1, blankEntry 1 exReq 0, blankEntry 1 exReq 3, sliceEntry 0 exReq 0 [80],
       sliceEntry 1 exReq 0 [82], sliceEntry 1 exReq 1 [83]]))) := by
  obtain ⟨s, h1, h2⟩ := execAll_some
    [.register [65], .register [66], .start 0 exReq, .manifest 0, .blanks 0, .take 0 0 [65], .take 0 1 [66],
      .start 1 exReq, .manifest 1, .blanks 1, .sliceOk 0 0 [80], .write 0 0, .take 1 0 [65], .sliceOk 1 0 [82],
      .write 1 0, .take 1 1 [65], .sliceOk 1 1 [83], .write 1 1, .finish 1]
    (fun s => exPhase s 1)
    (some (.returned (.svx (some
      [manifestEntry 1, blankEntry 1 exReq 0, blankEntry 1 exReq 3, sliceEntry 0 exReq 0 [80],
       sliceEntry 1 exReq 0 [82], sliceEntry 1 exReq 1 [83]])))) (by decide +kernel)
  exact ⟨s, execAll_reach _ _ _ .init h1 (fun _ _ _ => trivial), h2⟩

/-! ## C66: agents that fail are lost -/

/-- No agent is idle or working, and job `i` still has a slice to do. -/
def Spec.Starved (s : MState F) (i : Nat) : Prop :=
  (∀ a, s.idle a = false) ∧ (∀ a j z, ¬ Spec.Working s a j z) ∧
    ∃ J z, s.job i = some J ∧ J.phase = .running ∧ z < J.n ∧ J.task z = .waiting

/-- No agent registers any more. -/
def Spec.NoRegister (_ : MState F) (l : MLabel F) : Prop := ∀ a, l ≠ .register a

theorem starved_step (s s' : MState F) (i : Nat) (l : MLabel F) (h : Spec.Starved s i)
    (hl : Spec.NoRegister s l) (hs : MStep s l s') : Spec.Starved s' i := by
  obtain ⟨h1, h2, J0, z0, hj0, hp0, hz0, ht0⟩ := h
  cases hs with
  | register a => exact absurd rfl (hl a)
  | start j r hj =>
    refine ⟨h1, ?_, J0, z0, ?_, hp0, hz0, ht0⟩
    · intro a i' z'
      rw [working_start s _ _ _ _ j r _ hj]
      exact h2 a i' z'
    · dsimp only
      rw [upd_ne _ _ _ _ (by rintro rfl; rw [hj] at hj0; cases hj0)]
      exact hj0
  | manifest j w J hj hp hw =>
    refine ⟨h1, ?_, J0, z0, ?_, hp0, hz0, ht0⟩
    · intro a i' z'
      rw [working_phase s _ _ _ _ j J _ hj]
      exact h2 a i' z'
    · dsimp only
      rw [upd_ne _ _ _ _ (by rintro rfl; rw [hj] at hj0; injection hj0 with e; subst e; rw [hp] at hp0; cases hp0)]
      exact hj0
  | blanks j w J hj hp hw =>
    refine ⟨h1, ?_, J0, z0, ?_, hp0, hz0, ht0⟩
    · intro a i' z'
      rw [working_phase s _ _ _ _ j J _ hj]
      exact h2 a i' z'
    · dsimp only
      rw [upd_ne _ _ _ _ (by rintro rfl; rw [hj] at hj0; injection hj0 with e; subst e; rw [hp] at hp0; cases hp0)]
      exact hj0
  | finish j w J hj hp hall hw =>
    refine ⟨h1, ?_, J0, z0, ?_, hp0, hz0, ht0⟩
    · intro a i' z'
      rw [working_phase s _ _ _ _ j J _ hj]
      exact h2 a i' z'
    · dsimp only
      rw [upd_ne _ _ _ _ ?_]
      · exact hj0
      · rintro rfl
        rw [hj] at hj0
        injection hj0 with e
        subst e
        rcases hall z0 hz0 with e | ⟨p, e⟩ <;> rw [ht0] at e <;> cases e
  | take j z a J hj hp hz ht ha => rw [h1 a] at ha; cases ha
  | dialErr j z a J hj ht => exact absurd ⟨J, hj, ht⟩ (h2 a j z)
  | sliceErr j z a J hj ht => exact absurd ⟨J, hj, ht⟩ (h2 a j z)
  | sliceOk j z a png J hj ht => exact absurd ⟨J, hj, ht⟩ (h2 a j z)
  | write j z w png J hj ht hw =>
    refine ⟨h1, ?_, ?_⟩
    · intro a i' z'
      rw [working_setTask s _ _ _ _ j z J _ hj]
      split
      · intro e; cases e
      · exact h2 a i' z'
    · by_cases he : i = j
      · subst he
        rw [hj] at hj0
        injection hj0 with e
        subst e
        refine ⟨_, z0, upd_same _ _ _, hp0, hz0, ?_⟩
        unfold JobState.setTask
        dsimp only
        rw [upd_ne _ _ _ _ (by rintro rfl; rw [ht] at ht0; cases ht0)]
        exact ht0
      · refine ⟨J0, z0, ?_, hp0, hz0, ht0⟩
        dsimp only
        rw [upd_ne _ _ _ _ he]
        exact hj0

/-- **C66 (violated by the code).** Once every agent has been lost to failed calls (or none was ever
    registered) a job with a slice left to do never returns, whatever happens, unless an agent
    registers. -/
theorem starved_job_never_returns (s s' : MState F) (i : Nat) (h : Spec.Starved s i)
    (hs : MPath Spec.NoRegister s s') : ∃ J, s'.job i = some J ∧ J.phase = .running := by
  have : Spec.Starved s' i := by
    induction hs with
    | refl => exact h
    | step _ hp hst ih => exact starved_step _ _ i _ ih hp hst
  obtain ⟨_, _, J, _, hj, hp, _⟩ := this
  exact ⟨J, hj, hp⟩

/-- A state like that is reached when the only agent's first call fails, although the agent itself may
    be healthy. -/
theorem starved_reachable : ∃ s : MState ℚ, MReach (fun _ _ => True) s ∧ Spec.Starved s 0 := by
  let s1 : MState ℚ := { MState.init with idle := upd (fun _ => false) [65] true }
  have r1 : MReach (fun _ _ => True) s1 := .step .init trivial (.register _ [65])
  have r2 := MReach.step r1 trivial (.start s1 0 exReq rfl)
  have r3 := MReach.step r2 trivial (.manifest _ 0 0 ⟨exReq, .opened, fun _ => .waiting⟩ (by rfl) rfl rfl)
  have r4 := MReach.step r3 trivial (.blanks _ 0 0 ⟨exReq, .manifest, fun _ => .waiting⟩ (by rfl) rfl rfl)
  have r5 := MReach.step r4 trivial (.take _ 0 0 [65] ⟨exReq, .running, fun _ => .waiting⟩ (by rfl) rfl (by decide) rfl (by rfl))
  have r6 := MReach.step r5 trivial (.sliceErr _ 0 0 [65]
    ((⟨exReq, .running, fun _ => .waiting⟩ : JobState ℚ).setTask 0 (.busy [65])) (by rfl) (by rfl))
  refine ⟨_, r6, ?_, ?_, (((⟨exReq, .running, fun _ => .waiting⟩ : JobState ℚ).setTask 0 (.busy [65])).setTask 0 .dropped),
    1, by rfl, by rfl, by decide, ?_⟩
  · intro a
    show upd (upd (fun _ => false) [65] true) [65] false a = false
    unfold upd
    split <;> rfl
  · rintro a j z ⟨K, hK, ht⟩
    by_cases hj : j = 0
    · subst hj
      dsimp only at hK
      rw [upd_same] at hK
      injection hK with hK
      subst hK
      by_cases hz : z = 0
      · subst hz
        unfold JobState.setTask at ht
        dsimp only at ht
        rw [upd_same] at ht
        cases ht
      · unfold JobState.setTask at ht
        dsimp only at ht
        rw [upd_ne _ _ _ _ hz, upd_ne _ _ _ _ hz] at ht
        cases ht
    · dsimp only at hK
      rw [upd_ne _ _ _ _ hj, upd_ne _ _ _ _ hj, upd_ne _ _ _ _ hj, upd_ne _ _ _ _ hj, upd_ne _ _ _ _ hj] at hK
      cases hK
  · unfold JobState.setTask
    dsimp only
    rw [upd_ne _ _ _ _ (by decide), upd_ne _ _ _ _ (by decide)]

/-- A job of two slices with one agent: everything is written. -/
example : ∃ s : MState ℚ, MReach (fun _ _ => True) s ∧
    exPhase s 0 = some (.returned (.svx (some
      [manifestEntry 0, blankEntry 0 exReq 0, blankEntry 0 exReq 3, sliceEntry 0 exReq 1 [81],
       sliceEntry 0 exReq 0 [80]]))) := by
  obtain ⟨s, h1, h2⟩ := execAll_some
    [.start 0 exReq, .manifest 0, .register [65], .blanks 0, .take 0 1 [65], .sliceOk 0 1 [81], .take 0 0 [65],
      .dialErr 0 0, .register [65], .take 0 0 [65], .sliceOk 0 0 [80], .write 0 1, .write 0 0, .finish 0]
    (fun s => exPhase s 0)
    (some (.returned (.svx (some
      [manifestEntry 0, blankEntry 0 exReq 0, blankEntry 0 exReq 3, sliceEntry 0 exReq 1 [81],
       sliceEntry 0 exReq 0 [80]])))) (by decide +kernel)
  exact ⟨s, execAll_reach _ _ _ .init h1 (fun _ _ _ => trivial), h2⟩

/-- A complete history without overlap, with one agent, one call of which could not be made. -/
theorem exComplete : ∃ s : MState ℚ, MReach Spec.NoOverlap s ∧ MReach Spec.RegistersIdle s ∧ ∃ J, s.job 0 = some J ∧
    J.n = 2 ∧ J.req.L.dimZ = 2 ∧ J.task 0 = .done [80] ∧ J.task 1 = .done [81] ∧
    J.phase = .returned (.svx (some [manifestEntry 0, blankEntry 0 exReq 0, blankEntry 0 exReq 3, sliceEntry 0 exReq 1 [81],
      sliceEntry 0 exReq 0 [80]])) := by
  obtain ⟨s, h1, h2⟩ := execAll_some
    [.start 0 exReq, .register [65], .manifest 0, .blanks 0, .take 0 1 [65], .sliceOk 0 1 [81], .take 0 0 [65],
      .sliceOk 0 0 [80], .write 0 1, .write 0 0, .finish 0]
    (fun s => (exPhase s 0, exTask s 0 0, exTask s 0 1, (s.job 0).map (fun J => (J.n, J.req.L.dimZ))))
    (some (.returned (.svx (some [manifestEntry 0, blankEntry 0 exReq 0, blankEntry 0 exReq 3, sliceEntry 0 exReq 1 [81],
       sliceEntry 0 exReq 0 [80]]))), some (.done [80]), some (.done [81]), some (2, 2)) (by decide +kernel)
  simp only [Prod.mk.injEq] at h2
  obtain ⟨e1, e2, e3, e4⟩ := h2
  simp only [execAll] at h1
  cases hx : exec (MState.init : MState ℚ) (.start 0 exReq) with
  | none => rw [hx] at h1; cases h1
  | some t =>
    rw [hx] at h1
    have hs := exec_sound _ _ _ hx
    refine ⟨s, ?_, ?_, ?_⟩
    · refine execAll_reach (P := Spec.NoOverlap) [.register [65], .manifest 0, .blanks 0, .take 0 1 [65], .sliceOk 0 1 [81], .take 0 0 [65],
        .sliceOk 0 0 [80], .write 0 1, .write 0 0, .finish 0] t s (.step .init ?_ hs) h1 ?_
      · intro i r _ j J hJ
        cases hJ
      · intro t' l hl i r he
        subst he
        simp at hl
    · cases hy : exec t (.register [65]) with
      | none => dsimp only [Option.bind] at h1; rw [hy] at h1; cases h1
      | some u =>
        dsimp only [Option.bind] at h1
        rw [hy] at h1
        have ht : t.job = upd (fun _ => none) 0 (some ⟨exReq, .opened, fun _ => .waiting⟩) := by
          cases hs
          rfl
        refine execAll_reach (P := Spec.RegistersIdle) [.manifest 0, .blanks 0, .take 0 1 [65], .sliceOk 0 1 [81], .take 0 0 [65],
          .sliceOk 0 0 [80], .write 0 1, .write 0 0, .finish 0] u s (.step (.step .init ?_ hs) ?_ (exec_sound _ _ _ hy)) h1 ?_
        · intro a ha; cases ha
        · rintro a - i z ⟨J, hJ, hz⟩
          rw [ht] at hJ
          unfold upd at hJ
          split at hJ
          · injection hJ with hJ; subst hJ; cases hz
          · cases hJ
        · intro t' l hl a he
          subst he
          simp at hl
    · unfold exPhase at e1
      unfold exTask at e2 e3
      cases hj : s.job 0 with
      | none => rw [hj] at e1; cases e1
      | some J =>
        rw [hj] at e1 e2 e3 e4
        injection e1 with e1; injection e2 with e2; injection e3 with e3; injection e4 with e4; injection e4 with e4 e5
        exact ⟨J, rfl, e4, e5, e2, e3, e1⟩

/-- `master_one_slice_per_agent`, `job_reply_exact` and `job_complete` on that history. -/
example : ∃ (s : MState ℚ) (J : JobState ℚ) (zip : List Entry) (png : Nat → Bytes) (es : List Entry), s.job 0 = some J ∧
    J.phase = .returned (.svx (some zip)) ∧ (zip.map (·.name)).Perm (ascii "manifest.xml" :: (List.range (J.n + 2)).map fun k =>
        sliceName J.req.Dim J.req.NX J.req.NY J.req.NZ (k : Nat)) ∧ (∀ z < J.n, J.task z = .done (png z)) ∧ es.Perm (doneSlices 0 J) ∧
    ∀ a i z i' z', Spec.Working s a i z → Spec.Working s a i' z' → i = i' ∧ z = z' := by
  obtain ⟨s, h, hr, J, hj, hn, hd, t0, t1, hp⟩ := exComplete
  obtain ⟨zip, png, e, hd', -, hnames⟩ := job_complete s h 0 J hj _ hp (by
    intro z hz
    have : z = 0 ∨ z = 1 := by omega
    rcases this with rfl | rfl
    · rw [t0]; nofun
    · rw [t1]; nofun) (by rw [hd]; decide)
  obtain ⟨-, es, -, hes⟩ := job_reply_exact s h 0 J hj _ hp
  exact ⟨s, J, zip, png, es, hj, hp.trans (congrArg _ e), hnames, hd', hes, (master_one_slice_per_agent s hr).1⟩

/-- `starved_job_never_returns`: such a state is reached, and whatever happens there, the job is still running. -/
example : ∃ s : MState ℚ, MReach (fun _ _ => True) s ∧ ∀ s', MPath Spec.NoRegister s s' → ∃ J, s'.job 0 = some J ∧ J.phase = .running := by
  obtain ⟨s, h, hs⟩ := starved_reachable
  exact ⟨s, h, fun s' hp => starved_job_never_returns s s' 0 hs hp⟩

end StlDice
