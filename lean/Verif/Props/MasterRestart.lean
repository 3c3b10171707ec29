import Verif.Model.MasterRestart
import Verif.Props.Server
import Verif.Props.MasterProgress

/-! # C135: the stl2svx master started again has no agents -/

namespace StlDice

/-- The agent process has registered, and serves or is about to, or has ended. -/
def Spec.Registered (p : Net.Proc) : Prop := p.pc = .ready ∨ p.pc = .done

namespace Net
open Spec

variable {F : Type} {master : Bytes}

/-- The master knows no agent and none of its jobs has had one. -/
def NoAgents (s : MState F) : Prop :=
  (∀ a, s.idle a = false) ∧ ∀ i J, s.job i = some J → (∀ z, J.task z = .waiting) ∧ ∀ rep, J.phase = .returned rep → J.n = 0

theorem noAgents_init : NoAgents (MState.init : MState F) := ⟨fun _ => rfl, fun i J h => by cases h⟩

theorem noAgents_step {s t : MState F} {l : MLabel F} (h : NoAgents s) (hl : ∀ a, l ≠ .register a) (hs : MStep s l t) : NoAgents t := by
  obtain ⟨h1, h2⟩ := h
  have phase : ∀ {k : Nat} {K : JobState F} {p : JobPhase} {zip : Nat → List Entry} {final cur}, s.job k = some K →
      ((∃ rep, p = .returned rep) → K.n = 0) →
      NoAgents (⟨s.idle, cur, zip, final, upd s.job k (some { K with phase := p })⟩ : MState F) := by
    intro k K p zip final cur hk hp
    refine ⟨h1, ?_⟩
    intro i J hJ
    dsimp only at hJ
    by_cases hi : i = k
    · subst hi
      rw [upd_same] at hJ
      injection hJ with hJ
      subst hJ
      exact ⟨(h2 i K hk).1, fun rep hr => hp ⟨rep, hr⟩⟩
    · rw [upd_ne _ _ _ _ hi] at hJ
      exact h2 i J hJ
  cases hs with
  | register a => exact absurd rfl (hl a)
  | start k r hk =>
    refine ⟨h1, ?_⟩
    intro i J hJ
    dsimp only at hJ
    by_cases hi : i = k
    · subst hi
      rw [upd_same] at hJ
      injection hJ with hJ
      subst hJ
      exact ⟨fun _ => rfl, fun rep hr => by cases hr⟩
    · rw [upd_ne _ _ _ _ hi] at hJ
      exact h2 i J hJ
  | manifest k w K hk hph hw => exact phase hk (by rintro ⟨rep, h⟩; cases h)
  | blanks k w K hk hph hw => exact phase hk (by rintro ⟨rep, h⟩; cases h)
  | finish k w K hk hph hall hw =>
    refine phase hk fun _ => ?_
    by_contra hn
    have := hall 0 (by omega)
    rw [(h2 k K hk).1 0] at this
    rcases this with h | ⟨_, h⟩ <;> cases h
  | take k x a K hk hph hx hwait ha => rw [h1 a] at ha; cases ha
  | dialErr k x a K hk hb => rw [(h2 k K hk).1 x] at hb; cases hb
  | sliceOk k x a png K hk hb => rw [(h2 k K hk).1 x] at hb; cases hb
  | sliceErr k x a K hk hb => rw [(h2 k K hk).1 x] at hb; cases hb
  | write k x w png K hk hb hw => rw [(h2 k K hk).1 x] at hb; cases hb

/-- A process that has registered stays so, and does not register again. -/
theorem registered_step {p : Proc} {a : Act} {t : Pc} (hr : Registered p) (hs : ServerStep p.env master p.pc a t) :
    t = .done ∧ ∀ b ok, a ≠ .register master b ok := by
  obtain ⟨env, pc⟩ := p
  dsimp only at hs
  rcases hr with h | h <;> (dsimp only at h; subst h; cases hs)
  exact ⟨rfl, fun b ok h => by cases h⟩

/-- **C135.** The master is killed and started again when every agent process has registered, and no agent is started afterwards.  Then
    in every history, in which clients send any jobs, agents are killed, and the master is started again any number of times, the
    master has no agent, no slice of any job is ever begun, and no job that has a slice ever returns. -/
theorem restarted_master_waits {w u : World F} {ls : List WLabel} (hm : w.m = .init) (hp : ∀ k p, w.procs k = some p → Spec.Registered p)
    (h : WPath master w ls u) (hl : ∀ k, .launch k ∉ ls) :
    (∀ a, u.m.idle a = false) ∧ ∀ i J, u.m.job i = some J →
      (∀ z, J.task z = .waiting) ∧ (0 < J.n → ∀ rep, J.phase ≠ .returned rep) := by
  have key : NoAgents u.m ∧ ∀ k p, u.procs k = some p → Spec.Registered p := by
    induction h with
    | here => exact ⟨hm ▸ noAgents_init, hp⟩
    | @step ls l v u h hs ih =>
      obtain ⟨i1, i2⟩ := ih fun k hk => hl k (List.mem_append_left _ hk)
      cases hs with
      | master hq hs => exact ⟨noAgents_step i1 hq hs, i2⟩
      | @agent k p a t hpk ha hs =>
        refine ⟨i1, ?_⟩
        intro j q hq
        dsimp only at hq
        by_cases hj : j = k
        · subst hj
          rw [upd_same] at hq
          injection hq with hq
          subst hq
          exact .inr (registered_step (i2 j p hpk) hs).1
        · rw [upd_ne _ _ _ _ hj] at hq
          exact i2 j q hq
      | @register k p b t s hpk hs hms => exact absurd rfl ((registered_step (i2 k p hpk) hs).2 b true)
      | @launch k env hk => exact absurd (List.mem_append_right _ List.mem_cons_self) (hl k)
      | @kill k =>
        refine ⟨i1, ?_⟩
        intro j q hq
        dsimp only at hq
        by_cases hj : j = k
        · subst hj; rw [upd_same] at hq; cases hq
        · rw [upd_ne _ _ _ _ hj] at hq
          exact i2 j q hq
      | restart => exact ⟨noAgents_init, i2⟩
  refine ⟨key.1.1, fun i J hJ => ⟨(key.1.2 i J hJ).1, ?_⟩⟩
  intro hn rep hr
  have := (key.1.2 i J hJ).2 rep hr
  omega

theorem wpath_trans {ls₁ ls₂ : List WLabel} {w v u : World F} (h : WPath master w ls₁ v) (h2 : WPath master v ls₂ u) : WPath master w (ls₁ ++ ls₂) u := by
  induction h2 with
  | here => rwa [List.append_nil]
  | step _ hs ih =>
    rw [← List.append_assoc]
    exact .step ih hs

/-- **C135.** A killed agent has to be replaced by a new process, and that is enough: from every state a newly started agent can register, and the
    master then has it. -/
theorem launched_agent_registers (hmaster : master ≠ []) {w : World F} {k : Nat} (hk : w.procs k = none) {env : ServerEnv} {addr : Bytes}
    (hl : env.listen = some addr) {ifs} (hi : env.ifaces = some ifs) (hd : env.dial 0 = true) (hr : env.register = true) :
    ∃ u, WPath master w [.launch k, .agent k, .agent k, .register k (getAddress addr ifs)] u ∧ u.m.idle (getAddress addr ifs) = true ∧
      (∀ a, a ≠ getAddress addr ifs → u.m.idle a = w.m.idle a) ∧ u.m.job = w.m.job ∧ u.m.cur = w.m.cur ∧
      (∀ j, j ≠ k → u.procs j = w.procs j) ∧ ∃ p, u.procs k = some p ∧ Spec.Registered p := by
  have s1 : WStep master w (.launch k) { w with procs := upd w.procs k (some ⟨env, .start⟩) } := .launch hk
  have s2 : WStep master { w with procs := upd w.procs k (some ⟨env, .start⟩) } (.agent k)
      { w with procs := upd (upd w.procs k (some ⟨env, .start⟩)) k (some ⟨env, .bound addr⟩) } :=
    .agent (p := ⟨env, .start⟩) (a := .listen addr) (upd_same _ _ _) (fun b h => by cases h) (.listen addr hl)
  have s3 : WStep master { w with procs := upd (upd w.procs k (some ⟨env, .start⟩)) k (some ⟨env, .bound addr⟩) } (.agent k)
      { w with procs := upd (upd (upd w.procs k (some ⟨env, .start⟩)) k (some ⟨env, .bound addr⟩)) k (some ⟨env, .connected (getAddress addr ifs)⟩) } := by
    have h := ServerStep.dial0 (env := env) (master := master) addr ifs hmaster hi
    rw [hd] at h
    exact .agent (p := ⟨env, .bound addr⟩) (a := .dial master true) (upd_same _ _ _) (fun b h => by cases h) h
  have h4 := ServerStep.register (env := env) (master := master) (getAddress addr ifs)
  rw [hr] at h4
  have s4 := WStep.register (F := F) (w := ⟨w.m, upd (upd (upd w.procs k (some ⟨env, .start⟩)) k (some ⟨env, .bound addr⟩)) k
      (some ⟨env, .connected (getAddress addr ifs)⟩)⟩) (p := ⟨env, .connected (getAddress addr ifs)⟩) (upd_same _ _ _) h4 (.register w.m _)
  refine ⟨_, .step (.step (.step (.step .here s1) s2) s3) s4, upd_same _ _ _, fun a ha => upd_ne _ _ _ _ ha, rfl, rfl, ?_,
    ⟨env, .ready⟩, upd_same _ _ _, .inl rfl⟩
  intro j hj
  dsimp only
  rw [upd_ne _ _ _ _ hj, upd_ne _ _ _ _ hj, upd_ne _ _ _ _ hj, upd_ne _ _ _ _ hj]

theorem wpath_master (ps : Nat → Option Proc) (ls : List (MLabel F)) : ∀ {s t : MState F}, execAll s ls = some t → (∀ l ∈ ls, ∀ a, l ≠ .register a) →
    WPath master ⟨s, ps⟩ (ls.map fun _ => .master) ⟨t, ps⟩ := by
  induction ls with
  | nil =>
    intro s t he _
    simp only [execAll, Option.some.injEq] at he
    subst he
    exact .here
  | cons l ls ih =>
    intro s t he hl
    simp only [execAll] at he
    cases hx : exec s l with
    | none => rw [hx] at he; cases he
    | some u =>
      rw [hx] at he
      exact wpath_trans (.step .here (WStep.master (w := ⟨s, ps⟩) (hl l List.mem_cons_self) (exec_sound s u l hx)))
        (ih he fun l' hl' => hl l' (List.mem_cons_of_mem _ hl'))

/-- **C135.** An agent registers; the master is killed and started again; a client sends a job of two slices.  The agent still serves, and
    the job waits, for ever unless an agent is started; when one is, the job can begin its slice. -/
theorem restart_strands_agents : ∃ (w u v : World ℚ) (ls₁ ls₂ ls₃ : List WLabel), WPath (ascii "m:1") ⟨.init, fun _ => none⟩ ls₁ w ∧
    (∃ a, w.m.idle a = true) ∧ WPath (ascii "m:1") w (.restart :: ls₂) u ∧ (∀ k, .launch k ∉ ls₂) ∧
    (∃ k p, u.procs k = some p ∧ Spec.Registered p) ∧
    (∃ J, u.m.job 0 = some J ∧ J.n = 2 ∧ J.phase = .running) ∧
    (∀ ls x, WPath (ascii "m:1") u ls x → (∀ k, .launch k ∉ ls) → ∀ K, x.m.job 0 = some K → 0 < K.n → ∀ rep, K.phase ≠ .returned rep) ∧
    WPath (ascii "m:1") u ls₃ v ∧ ∃ J a, v.m.job 0 = some J ∧ J.task 0 = .busy a := by
  have henv : ∃ (env : ServerEnv), env.listen = some (ascii "[::]:5") ∧ env.ifaces = some [] ∧ env.dial 0 = true ∧ env.register = true :=
    ⟨⟨some (ascii "[::]:5"), some [], fun _ => true, true⟩, rfl, rfl, rfl, rfl⟩
  obtain ⟨env, e1, e2, e3, e4⟩ := henv
  obtain ⟨w, p1, p2, -, -, -, p3, p, p4, p5⟩ := launched_agent_registers (F := ℚ) (master := ascii "m:1") (by decide) (w := ⟨.init, fun _ => none⟩) (k := 0) rfl e1 e2 e3 e4
  let ms : List (MLabel ℚ) := [.start 0 exReq, .manifest 0, .blanks 0]
  obtain ⟨s, h1, h2⟩ := execAll_some ms (fun s => (s.job 0).map (fun J => (J.n, J.phase, J.task 0)))
    (some (2, .running, .waiting)) (by decide +kernel)
  obtain ⟨J, hJ, h2⟩ := Option.map_eq_some_iff.mp h2
  injection h2 with h3 h4
  injection h4 with h4 h5
  have path := wpath_master (master := ascii "m:1") w.procs ms h1 (by
    intro l hl a h
    subst h
    simp only [ms, List.mem_cons, List.not_mem_nil, or_false, reduceCtorEq] at hl)
  have r0 : WStep (ascii "m:1") w .restart ⟨.init, w.procs⟩ := .restart
  have hfull : WPath (ascii "m:1") w (.restart :: [.master, .master, .master]) ⟨s, w.procs⟩ := wpath_trans (.step .here r0) path
  obtain ⟨v, q1, q2, -, q3, -⟩ := launched_agent_registers (F := ℚ) (master := ascii "m:1") (by decide) (w := ⟨s, w.procs⟩) (k := 1)
    (p3 1 (by decide)) e1 e2 e3 e4
  have hvJ : v.m.job 0 = some J := by rw [q3]; exact hJ
  have step := WStep.master (master := ascii "m:1") (fun a h => by cases h) (MStep.take v.m 0 0 _ J hvJ h4 (by omega) h5 q2)
  refine ⟨w, _, _, _, [.master, .master, .master], _, p1, ⟨_, p2⟩, hfull, by simp, ⟨0, p, p4, p5⟩, ⟨J, hJ, h3, h4⟩, ?_,
    .step q1 step, ?_⟩
  · intro ls x hx hl K hK hKn
    refine ((restarted_master_waits (w := ⟨.init, w.procs⟩) rfl ?_ (wpath_trans path hx) ?_).2 0 K hK).2 hKn
    · intro k q hq
      by_cases hk : k = 0
      · subst hk
        rw [p4] at hq
        injection hq with hq
        subst hq
        exact p5
      · have := p3 k hk
        dsimp only at this hq
        rw [this] at hq
        cases hq
    · intro k hk
      rcases List.mem_append.mp hk with hk | hk
      · simp [ms] at hk
      · exact hl k hk
  · exact ⟨J.setTask 0 (.busy _), _, upd_same v.m.job 0 _, upd_same J.task 0 _⟩

end Net
end StlDice
