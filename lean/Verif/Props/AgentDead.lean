import Verif.Model.AgentDead
import Verif.Props.ClientGone
import Verif.Props.SvxNames

/-! # C136: what a dead agent costs the stl2svx service -/

namespace StlDice
namespace Net
open Spec

variable {F : Type}

theorem other_step {t t' : MState F} {l : MLabel F} {a : Bytes} (hs : MStep t l t') (hr : l ≠ .register a)
    (hn : ∀ i z, Calls t a i z → l ≠ .dialErr i z ∧ l ≠ .sliceErr i z ∧ ∀ png, l ≠ .sliceOk i z png) :
    (t'.idle a = t.idle a ∧ ∀ j y, Working t' a j y ↔ Working t a j y) ∨
    ∃ i z, t.idle a = true ∧ t'.idle a = false ∧ ∀ j y, Working t' a j y ↔ (j = i ∧ y = z) ∨ Working t a j y := by
  have end_task : ∀ {i z : Nat} {b : Bytes} {J : JobState F} {id' cur' zip' fin'} {tk : Task}, t.job i = some J → J.task z = .busy b → b ≠ a →
      (∀ c, tk ≠ .busy c) → ∀ j y, Working ⟨id', cur', zip', fin', upd t.job i (some (J.setTask z tk))⟩ a j y ↔ Working t a j y := by
    intro i z b J id' cur' zip' fin' tk hj ht hb hk j y
    rw [working_setTask t _ _ _ _ i z J tk hj]
    split
    · rename_i e
      obtain ⟨rfl, rfl⟩ := e
      constructor
      · intro h; exact absurd h (hk a)
      · rintro ⟨K, hK, h⟩
        rw [hj] at hK
        injection hK with hK
        subst hK
        rw [ht] at h
        injection h with h
        exact absurd h hb
    · exact Iff.rfl
  cases hs with
  | register b => exact .inl ⟨upd_ne _ _ _ _ (fun h => hr (by rw [h])), fun _ _ => Iff.rfl⟩
  | start i r hj => exact .inl ⟨rfl, fun j y => working_start t _ _ _ _ i r _ hj a j y⟩
  | manifest i w J hj hp hw => exact .inl ⟨rfl, fun j y => working_phase t _ _ _ _ i J _ hj a j y⟩
  | blanks i w J hj hp hw => exact .inl ⟨rfl, fun j y => working_phase t _ _ _ _ i J _ hj a j y⟩
  | finish i w J hj hp hall hw => exact .inl ⟨rfl, fun j y => working_phase t _ _ _ _ i J _ hj a j y⟩
  | take i z b J hj hp hz ht ha =>
    by_cases hb : b = a
    · subst hb
      refine .inr ⟨i, z, ha, upd_same _ _ _, ?_⟩
      intro j y
      rw [working_setTask t _ _ _ _ i z J _ hj]
      split
      · rename_i e
        exact ⟨fun _ => .inl e, fun _ => rfl⟩
      · rename_i e
        exact ⟨.inr, fun h => h.resolve_left e⟩
    · refine .inl ⟨upd_ne _ _ _ _ (Ne.symm hb), ?_⟩
      intro j y
      rw [working_setTask t _ _ _ _ i z J _ hj]
      split
      · rename_i e
        obtain ⟨rfl, rfl⟩ := e
        constructor
        · intro h; injection h with h; exact absurd h hb
        · rintro ⟨K, hK, h⟩
          rw [hj] at hK
          injection hK with hK
          subst hK
          rw [ht] at h
          cases h
      · exact Iff.rfl
  | dialErr i z b J hj ht =>
    have hb : b ≠ a := by rintro rfl; exact (hn i z ⟨J, hj, ht⟩).1 rfl
    exact .inl ⟨rfl, end_task hj ht hb (by intro c h; cases h)⟩
  | sliceErr i z b J hj ht =>
    have hb : b ≠ a := by rintro rfl; exact (hn i z ⟨J, hj, ht⟩).2.1 rfl
    exact .inl ⟨rfl, end_task hj ht hb (by intro c h; cases h)⟩
  | sliceOk i z b png J hj ht =>
    have hb : b ≠ a := by rintro rfl; exact (hn i z ⟨J, hj, ht⟩).2.2 png rfl
    exact .inl ⟨upd_ne _ _ _ _ (Ne.symm hb), end_task hj ht hb (by intro c h; cases h)⟩
  | write i z w png J hj ht hw =>
    refine .inl ⟨rfl, ?_⟩
    intro j y
    rw [working_setTask t _ _ _ _ i z J _ hj]
    split
    · rename_i e
      obtain ⟨rfl, rfl⟩ := e
      constructor
      · intro h; cases h
      · rintro ⟨K, hK, h⟩
        rw [hj] at hK
        injection hK with hK
        subst hK
        rw [ht] at h
        cases h
    · exact Iff.rfl

/-- A lost slice stays lost. -/
theorem dropped_step {t t' : MState F} {l : MLabel F} (hs : MStep t l t') {i z : Nat} {J : JobState F} (hj : t.job i = some J)
    (hd : J.task z = .dropped) : ∃ K, t'.job i = some K ∧ K.task z = .dropped := by
  have set : ∀ {k x : Nat} {M : JobState F} {tk : Task}, t.job k = some M → M.task x ≠ .dropped →
      ∃ K, upd t.job k (some (M.setTask x tk)) i = some K ∧ K.task z = .dropped := by
    intro k x M tk hk hx
    by_cases hi : i = k
    · subst hi
      rw [hj] at hk
      injection hk with hk
      subst hk
      refine ⟨_, upd_same _ _ _, ?_⟩
      have hz : z ≠ x := by rintro rfl; exact hx hd
      exact (upd_ne _ _ _ _ hz).trans hd
    · exact ⟨J, (upd_ne _ _ _ _ hi).trans hj, hd⟩
  have phase : ∀ {k : Nat} {M : JobState F} {p : JobPhase}, t.job k = some M →
      ∃ K, upd t.job k (some { M with phase := p }) i = some K ∧ K.task z = .dropped := by
    intro k M p hk
    by_cases hi : i = k
    · subst hi
      rw [hj] at hk
      injection hk with hk
      subst hk
      exact ⟨_, upd_same _ _ _, hd⟩
    · exact ⟨J, (upd_ne _ _ _ _ hi).trans hj, hd⟩
  cases hs with
  | register b => exact ⟨J, hj, hd⟩
  | start k r hk =>
    have hi : i ≠ k := by rintro rfl; rw [hk] at hj; cases hj
    exact ⟨J, (upd_ne _ _ _ _ hi).trans hj, hd⟩
  | manifest k w M hk => exact phase hk
  | blanks k w M hk => exact phase hk
  | finish k w M hk => exact phase hk
  | take k x b M hk hp hx ht => exact set hk (by rw [ht]; rintro ⟨⟩)
  | dialErr k x b M hk ht => exact set hk (by rw [ht]; rintro ⟨⟩)
  | sliceErr k x b M hk ht => exact set hk (by rw [ht]; rintro ⟨⟩)
  | sliceOk k x b png M hk ht => exact set hk (by rw [ht]; rintro ⟨⟩)
  | write k x w png M hk ht => exact set hk (by rw [ht]; rintro ⟨⟩)

/-- **C136.** An agent that is idle or works on one slice dies.  In every history from then on, as long as no agent registers at its address: either no call to
    it has failed yet, and the master still counts it among the idle ones or waits for its answer; or exactly one call has failed, the
    agent is out of the service for good, and the slice of the call is lost (or, if it was `grpc.Dial` that failed, given to the next agent). -/
theorem dead_agent_costs_one {P : MState F → MLabel F → Prop} {a : Bytes} {s t : MState F} {fs : List (MLabel F)} (h : AfterDeath P a s fs t)
    (h1 : ∀ i z i' z', Working s a i z → Working s a i' z' → i = i' ∧ z = z') (h2 : ∀ i z, Working s a i z → s.idle a = false)
    (h3 : s.idle a = true ∨ ∃ i z, Working s a i z) :
    (fs = [] ∧ (t.idle a = true ∨ ∃ i z, Working t a i z)) ∨
    ∃ i z, ((fs = [.sliceErr i z] ∧ ∃ J, t.job i = some J ∧ J.task z = .dropped) ∨ fs = [.dialErr i z]) ∧
      t.idle a = false ∧ ∀ j y, ¬ Working t a j y := by
  have key : (fs = [] ∧ (∀ i z i' z', Working t a i z → Working t a i' z' → i = i' ∧ z = z') ∧ (∀ i z, Working t a i z → t.idle a = false) ∧
      (t.idle a = true ∨ ∃ i z, Working t a i z)) ∨
    ∃ i z, ((fs = [.sliceErr i z] ∧ ∃ J, t.job i = some J ∧ J.task z = .dropped) ∨ fs = [.dialErr i z]) ∧
      t.idle a = false ∧ ∀ j y, ¬ Working t a j y := by
    induction h with
    | here => exact .inl ⟨rfl, h1, h2, h3⟩
    | @other fs t t' l h hp hs hr hn ih =>
      rcases other_step hs hr hn with ⟨e, w⟩ | ⟨i, z, e, e', w⟩
      · rcases ih with ⟨rfl, i1, i2, i3⟩ | ⟨i, z, hf, i2, i3⟩
        · refine .inl ⟨rfl, ?_, ?_, ?_⟩
          · intro i z i' z' hi hi'
            exact i1 _ _ _ _ ((w _ _).mp hi) ((w _ _).mp hi')
          · intro i z hi; rw [e]; exact i2 i z ((w _ _).mp hi)
          · rw [e]; exact i3.imp id fun ⟨i, z, hi⟩ => ⟨i, z, (w _ _).mpr hi⟩
        · refine .inr ⟨i, z, ?_, e.trans i2, fun j y hj => i3 j y ((w _ _).mp hj)⟩
          refine hf.imp ?_ id
          rintro ⟨hf, J, hj, hd⟩
          exact ⟨hf, dropped_step hs hj hd⟩
      · rcases ih with ⟨rfl, i1, i2, i3⟩ | ⟨_, _, _, i2, _⟩
        · have hno : ∀ j y, ¬ Working t a j y := by
            intro j y hj
            have := i2 j y hj
            rw [e] at this
            cases this
          refine .inl ⟨rfl, ?_, fun _ _ _ => e', .inr ⟨i, z, (w _ _).mpr (.inl ⟨rfl, rfl⟩)⟩⟩
          intro j y j' y' hj hj'
          obtain ⟨rfl, rfl⟩ := ((w _ _).mp hj).resolve_right (hno _ _)
          obtain ⟨rfl, rfl⟩ := ((w _ _).mp hj').resolve_right (hno _ _)
          exact ⟨rfl, rfl⟩
        · rw [i2] at e; cases e
    | @fails fs t t' l i z h hp hs hw hl ih =>
      rcases ih with ⟨rfl, i1, i2, i3⟩ | ⟨_, _, _, _, i3⟩
      · obtain ⟨J, hJ, hb⟩ := hw
        have hw : Working t a i z := ⟨J, hJ, hb⟩
        have gone : ∀ {id' cur' zip' fin'} {tk : Task}, (∀ c, tk ≠ .busy c) → ∀ j y,
            ¬ Working (⟨id', cur', zip', fin', upd t.job i (some (J.setTask z tk))⟩ : MState F) a j y := by
          intro id' cur' zip' fin' tk hk j y
          rw [working_setTask t _ _ _ _ i z J tk hJ]
          split
          · exact hk a
          · rename_i e
            intro hj
            exact e (i1 _ _ _ _ hj hw)
        rcases hl with rfl | rfl
        · cases hs with
          | sliceErr _ _ b J' hJ' hb' =>
            rw [hJ] at hJ'
            injection hJ' with hJ'
            subst hJ'
            exact .inr ⟨i, z, .inl ⟨rfl, _, upd_same _ _ _, upd_same J.task z _⟩, i2 _ _ hw, gone (by intro c h; cases h)⟩
        · cases hs with
          | dialErr _ _ b J' hJ' hb' =>
            rw [hJ] at hJ'
            injection hJ' with hJ'
            subst hJ'
            exact .inr ⟨i, z, .inr rfl, i2 _ _ hw, gone (by intro c h; cases h)⟩
      · exact absurd hw (i3 i z)
  rcases key with ⟨k1, _, _, k4⟩ | k
  · exact .inl ⟨k1, k4⟩
  · exact .inr k

theorem afterDeath_reach {P : MState F → MLabel F → Prop} {a : Bytes} {s t : MState F} {fs : List (MLabel F)} (hs : MReach P s)
    (h : AfterDeath P a s fs t) : MReach P t := by
  induction h with
  | here => exact hs
  | other _ hp hs _ _ ih => exact .step ih hp hs
  | fails _ hp hs _ _ ih => exact .step ih hp hs

/-- **C136.** When jobs do not overlap, the job that lost its slice to the dead agent still succeeds: if it returns, it returns a readable
    archive, and the image of the slice, the one numbered `z + 1`, is not in it. -/
theorem dead_agent_slice_missing {P : MState F → MLabel F → Prop} (hP : ∀ s l, P s l → Spec.NoOverlap s l) {a : Bytes} {s t : MState F}
    {fs : List (MLabel F)} (hs : MReach P s) (h : AfterDeath P a s fs t)
    (h1 : ∀ i z i' z', Working s a i z → Working s a i' z' → i = i' ∧ z = z') (h2 : ∀ i z, Working s a i z → s.idle a = false)
    (h3 : s.idle a = true ∨ ∃ i z, Working s a i z) {i z : Nat} (hf : .sliceErr i z ∈ fs) {J : JobState F} (hj : t.job i = some J)
    {rep : Reply} (hp : J.phase = .returned rep) :
    z < J.n ∧ ∃ zip, rep = .svx (some zip) ∧ ∀ e ∈ zip, e.name ≠ sliceName J.req.Dim J.req.NX J.req.NY J.req.NZ (z + 1) := by
  have hd : J.task z = .dropped := by
    rcases dead_agent_costs_one h h1 h2 h3 with ⟨rfl, _⟩ | ⟨k, x, hc, _, _⟩
    · cases hf
    · rcases hc with ⟨rfl, K, hk, hd⟩ | rfl
      · rw [List.mem_singleton] at hf
        injection hf with e1 e2
        subst e1; subst e2
        rw [hj] at hk
        injection hk with hk
        subst hk
        exact hd
      · rw [List.mem_singleton] at hf
        cases hf
  have ht : MReach Spec.NoOverlap t := by
    have := afterDeath_reach hs h
    clear hj hp hf h
    induction this with
    | init => exact .init
    | step _ hp hs ih => exact .step ih (hP _ _ hp) hs
  have hz : z < J.n := by
    by_contra hz
    have := ((master_inv t ht).1 i J hj).1 z (by omega)
    rw [hd] at this
    cases this
  refine ⟨hz, ?_⟩
  obtain ⟨_, es, rfl, hperm⟩ := job_reply_exact t ht i J hj rep hp
  refine ⟨_, rfl, ?_⟩
  have hpos : (J.n : Int) = J.req.L.dimZ := by
    unfold JobState.n at hz ⊢
    omega
  intro e he
  rcases List.mem_append.mp he with he | he
  · simp only [headerEntries, List.mem_cons, List.not_mem_nil, or_false] at he
    rcases he with rfl | rfl | rfl
    · exact fun hh => sliceName_ne_manifest _ _ _ _ _ hh.symm
    · intro hh
      have := sliceName_injective _ _ _ _ _ _ (by omega) (by omega) hh
      omega
    · intro hh
      have := sliceName_injective _ _ _ _ _ _ (by omega) (by omega) hh
      omega
  · have he := hperm.mem_iff.mp he
    unfold doneSlices at he
    obtain ⟨x, hx, hxe⟩ := List.mem_filterMap.mp he
    intro hh
    cases htx : J.task x with
    | done p =>
      rw [htx] at hxe
      injection hxe with hxe
      subst hxe
      have := sliceName_injective _ _ _ _ _ _ (by omega) (by omega) hh
      have hxz : x = z := by omega
      rw [hxz, hd] at htx
      cases htx
    | waiting => rw [htx] at hxe; cases hxe
    | busy a => rw [htx] at hxe; cases hxe
    | writing p => rw [htx] at hxe; cases hxe
    | dropped => rw [htx] at hxe; cases hxe

/-! ## A case that meets the hypotheses -/

/-- **C136.** Two agents are idle and one of them is dead.  The master gives it a slice although the other is free, and the job succeeds with an archive that
    lacks the image of this slice; what remains is the other agent. -/
theorem dead_agent_taken : ∃ (ls : List (MLabel ℚ)) (s t : MState ℚ) (J : JobState ℚ),
    History (fun s l => Spec.NoOverlap s l ∧ Spec.RegistersIdle s l) ls s ∧ s.idle [65] = true ∧ s.idle [66] = true ∧
    AfterDeath (fun s l => Spec.NoOverlap s l ∧ Spec.RegistersIdle s l) [65] s [.sliceErr 0 1] t ∧
    t.job 0 = some J ∧ J.phase = .returned (.svx (some
      [manifestEntry 0, blankEntry 0 exReq 0, blankEntry 0 exReq 3, sliceEntry 0 exReq 0 [80]])) ∧
    t.idle [65] = false ∧ t.idle [66] = true := by
  let P : MState ℚ → MLabel ℚ → Prop := fun s l => Spec.NoOverlap s l ∧ Spec.RegistersIdle s l
  let s1 : MState ℚ := { (MState.init : MState ℚ) with idle := upd (MState.init : MState ℚ).idle [65] true }
  let s2 : MState ℚ := { s1 with idle := upd s1.idle [66] true }
  let s3 : MState ℚ := { s2 with cur := some 0, job := upd s2.job 0 (some ⟨exReq, .opened, fun _ => .waiting⟩) }
  have g1 : History P [.register [65]] s1 := .step .init ⟨by (intro i r h; cases h), by (rintro b - i z ⟨J, hJ, -⟩; cases hJ)⟩ (.register _ _)
  have g2 : History P [.register [65], .register [66]] s2 :=
    .step g1 ⟨by (intro i r h; cases h), by (rintro b - i z ⟨J, hJ, -⟩; cases hJ)⟩ (.register _ _)
  have g3 : History P [.register [65], .register [66], .start 0 exReq] s3 :=
    .step g2 ⟨by (intro i r _ j J hJ; cases hJ), by (intro b h; cases h)⟩ (.start _ 0 exReq rfl)
  let l1 : List (MLabel ℚ) := [.manifest 0, .blanks 0, .take 0 0 [66], .sliceOk 0 0 [80], .write 0 0]
  have ok : ∀ (u : MState ℚ) (l : MLabel ℚ), (∀ i r, l ≠ .start i r) → (∀ b, l ≠ .register b) → P u l := by
    intro u l h1 h2
    exact ⟨fun i r h => absurd h (h1 i r), fun b h => absurd h (h2 b)⟩
  have from3 : ∀ {α : Type} [DecidableEq α] (ls : List (MLabel ℚ)) (f : MState ℚ → α) (v : α), (execAll s3 ls).map f = some v →
      ∃ s, execAll s3 ls = some s ∧ f s = v := by
    intro α _ ls f v h
    exact Option.map_eq_some_iff.mp h
  obtain ⟨s, h2, e2⟩ := from3 l1 (fun s => (s.idle [65], s.idle [66])) (true, true) (by decide +kernel)
  obtain ⟨u, h3, e3⟩ := from3 (l1 ++ [.take 0 1 [65]]) (fun s => (s.job 0).map (fun J => J.task 1)) (some (.busy [65])) (by decide +kernel)
  obtain ⟨v, h4, -⟩ := from3 ((l1 ++ [.take 0 1 [65]]) ++ [.sliceErr 0 1]) (fun s => s.idle [65]) false (by decide +kernel)
  obtain ⟨t, h5, e5⟩ := from3 (((l1 ++ [.take 0 1 [65]]) ++ [.sliceErr 0 1]) ++ [.finish 0])
    (fun s => ((s.job 0).map (·.phase), s.idle [65], s.idle [66])) (some (.returned (.svx (some
      [manifestEntry 0, blankEntry 0 exReq 0, blankEntry 0 exReq 3, sliceEntry 0 exReq 0 [80]]))), false, true) (by decide +kernel)
  rw [execAll_append, h4] at h5
  rw [execAll_append, h3] at h4
  rw [execAll_append, h2] at h3
  have one : ∀ {x y : MState ℚ} {l : MLabel ℚ}, (some x).bind (fun t => execAll t [l]) = some y → MStep x l y := by
    intro x y l h
    simp only [execAll, Option.bind_some] at h
    cases hx : exec x l with
    | none => rw [hx] at h; cases h
    | some w =>
      rw [hx] at h
      injection h with h
      subst h
      exact exec_sound _ _ _ hx
  have hs : History P ([.register [65], .register [66], .start 0 exReq] ++ l1) s := execAll_history l1 s3 s _ g3 h2 (by
    intro u l hl
    refine ok u l ?_ ?_
    · rintro i r rfl
      simp only [l1, List.mem_cons, List.not_mem_nil, or_false, reduceCtorEq] at hl
    · rintro b rfl
      simp only [l1, List.mem_cons, List.not_mem_nil, or_false, reduceCtorEq] at hl)
  obtain ⟨Ju, hJu, e3⟩ := Option.map_eq_some_iff.mp e3
  injection e2 with e2 e2'
  injection e5 with e5 e6
  injection e6 with e6 e7
  obtain ⟨J, hJ, e5⟩ := Option.map_eq_some_iff.mp e5
  refine ⟨_, s, t, J, hs, e2, e2', ?_, hJ, e5, e6, e7⟩
  have d1 : AfterDeath P [65] s [] u := .other .here (ok _ _ (by intro i r h; cases h) (by intro b h; cases h)) (one h3) (by intro h; cases h)
    (by intro i z _; exact ⟨(by intro h; cases h), (by intro h; cases h), (by intro p h; cases h)⟩)
  have d2 : AfterDeath P [65] s [.sliceErr 0 1] v := .fails d1 (ok _ _ (by intro i r h; cases h) (by intro b h; cases h)) (one h4)
    ⟨Ju, hJu, e3⟩ (.inl rfl)
  exact .other d2 (ok _ _ (by intro i r h; cases h) (by intro b h; cases h)) (one h5) (by intro h; cases h)
    (by intro i z _; exact ⟨(by intro h; cases h), (by intro h; cases h), (by intro p h; cases h)⟩)

/-- The hypotheses of the theorems on `s` hold in every state reachable when agents register only while idle (C43), so in that of `dead_agent_taken`. -/
example : ∃ (s t : MState ℚ), MReach Spec.RegistersIdle s ∧ s.idle [65] = true ∧
    AfterDeath (fun s l => Spec.NoOverlap s l ∧ Spec.RegistersIdle s l) [65] s [.sliceErr 0 1] t ∧
    (∀ i z i' z', Working s [65] i z → Working s [65] i' z' → i = i' ∧ z = z') ∧ (∀ i z, Working s [65] i z → s.idle [65] = false) := by
  obtain ⟨ls, s, t, J, hs, h1, h3, h2, -⟩ := dead_agent_taken
  have hr : MReach Spec.RegistersIdle s := by
    have h := history_reach hs
    clear h1 h2 h3 hs
    induction h with
    | init => exact .init
    | step _ hp hs ih => exact .step ih hp.2 hs
  exact ⟨s, t, hr, h1, h2, (master_one_slice_per_agent s hr).1 [65], (master_one_slice_per_agent s hr).2 [65]⟩

end Net
end StlDice
