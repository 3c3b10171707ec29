import Verif.Model.Server
import Verif.Props.SvxNetRuns

/-! # When a server process becomes an agent (C101) -/

namespace StlDice
namespace Net
open Spec

/-- The acts of a process at each place. -/
def Shape (env : ServerEnv) (master : Bytes) (h : List Act) : Pc → Prop
  | .start => h = []
  | .bound a => env.listen = some a ∧ h = [.listen a]
  | .dialling b i => 0 < i ∧ master ≠ [] ∧ (∀ j < i, env.dial j = false) ∧
      ∃ a ifs, env.listen = some a ∧ env.ifaces = some ifs ∧ b = getAddress a ifs ∧
        h = .listen a :: List.replicate i (.dial master false)
  | .connected b => master ≠ [] ∧ ∃ i a ifs, (∀ j < i, env.dial j = false) ∧ env.dial i = true ∧ env.listen = some a ∧
      env.ifaces = some ifs ∧ b = getAddress a ifs ∧
      h = .listen a :: (List.replicate i (.dial master false) ++ [.dial master true])
  | .ready => master ≠ [] ∧ ∃ i a ifs, (∀ j < i, env.dial j = false) ∧ env.dial i = true ∧ env.listen = some a ∧
      env.ifaces = some ifs ∧ env.register = true ∧
      h = .listen a :: (List.replicate i (.dial master false) ++ [.dial master true, .register master (getAddress a ifs) true])
  | .done =>
      (env.listen = none ∧ h = [.exit]) ∨
      (∃ a, env.listen = some a ∧ master = [] ∧ h = [.listen a, .serveMaster]) ∨
      (∃ a, env.listen = some a ∧ master ≠ [] ∧ env.ifaces = none ∧ h = [.listen a, .exit]) ∨
      (master ≠ [] ∧ ∃ i a ifs, (∀ j < i, env.dial j = false) ∧ env.dial i = true ∧ env.listen = some a ∧
        env.ifaces = some ifs ∧
        ((env.register = true ∧ h = .listen a :: (List.replicate i (.dial master false) ++
          [.dial master true, .register master (getAddress a ifs) true, .serveAgent])) ∨
         (env.register = false ∧ h = .listen a :: (List.replicate i (.dial master false) ++
          [.dial master true, .register master (getAddress a ifs) false]))))

theorem run_shape {env : ServerEnv} {master : Bytes} {h : List Act} {s : Pc} (hr : ServerRun env master h s) :
    Shape env master h s := by
  induction hr with
  | nil => rfl
  | @step h s a t hr hs ih =>
    cases hs with
    | listen a h' =>
      unfold Shape at ih; subst ih
      exact ⟨h', rfl⟩
    | noListen h' =>
      unfold Shape at ih; subst ih
      exact Or.inl ⟨h', rfl⟩
    | master a h' =>
      obtain ⟨hl, rfl⟩ := ih
      exact Or.inr (Or.inl ⟨a, hl, h', rfl⟩)
    | noIfaces a hm hi =>
      obtain ⟨hl, rfl⟩ := ih
      exact Or.inr (Or.inr (Or.inl ⟨a, hl, hm, hi, rfl⟩))
    | dial0 a ifs hm hi =>
      obtain ⟨hl, rfl⟩ := ih
      cases hd : env.dial 0 with
      | true =>
        exact ⟨hm, 0, a, ifs, by intro j hj; omega, hd, hl, hi, rfl, rfl⟩
      | false =>
        exact ⟨by decide, hm, by intro j hj; rw [show j = 0 by omega]; exact hd, a, ifs, hl, hi, rfl, rfl⟩
    | redial b i =>
      obtain ⟨h0, hm, hf, a, ifs, hl, hi, rfl, rfl⟩ := ih
      cases hd : env.dial i with
      | true =>
        exact ⟨hm, i, a, ifs, hf, hd, hl, hi, rfl, rfl⟩
      | false =>
        refine ⟨by omega, hm, ?_, a, ifs, hl, hi, rfl, ?_⟩
        · intro j hj
          by_cases e : j = i
          · rw [e]; exact hd
          · exact hf j (by omega)
        · rw [List.replicate_succ']; rfl
    | register b =>
      obtain ⟨hm, i, a, ifs, hf, hd, hl, hi, rfl, rfl⟩ := ih
      cases hg : env.register with
      | true =>
        refine ⟨hm, i, a, ifs, hf, hd, hl, hi, hg, ?_⟩
        simp
      | false =>
        refine Or.inr (Or.inr (Or.inr ⟨hm, i, a, ifs, hf, hd, hl, hi, Or.inr ⟨hg, ?_⟩⟩))
        simp
    | serve =>
      obtain ⟨hm, i, a, ifs, hf, hd, hl, hi, hg, rfl⟩ := ih
      refine Or.inr (Or.inr (Or.inr ⟨hm, i, a, ifs, hf, hd, hl, hi, Or.inl ⟨hg, ?_⟩⟩))
      simp

/-- Nothing of the agent's is in an empty list, and so on: the lists of acts are short. -/
theorem mem_replicate_dial {i : Nat} {m : Bytes} {x : Act} (h : x ∈ List.replicate i (Act.dial m false)) : x = .dial m false :=
  List.eq_of_mem_replicate h

/-- **C101.** A process registers an address at most once, only if it was started as an agent, only at its master, only after it has begun to
    listen, and the address is the one of C91 for the address it listens on. -/
theorem registers_once {env : ServerEnv} {master : Bytes} {h h1 h2 : List Act} {s : Pc} (hr : ServerRun env master h s)
    {m b : Bytes} {ok : Bool} (e : h = h1 ++ .register m b ok :: h2) :
    master ≠ [] ∧ m = master ∧ ok = env.register ∧
    (∃ a ifs, env.ifaces = some ifs ∧ .listen a ∈ h1 ∧ b = getAddress a ifs) ∧
    (∀ m' b' ok', Act.register m' b' ok' ∉ h1 ∧ Act.register m' b' ok' ∉ h2) ∧
    (h2 = [] ∨ (ok = true ∧ h2 = [.serveAgent])) := by
  have key : ∀ (i : Nat) (a : Bytes) (c : Bytes) (r : Bool) (tl : List Act), (∀ x ∈ tl, ∀ m b ok, x ≠ Act.register m b ok) →
      h = .listen a :: (List.replicate i (.dial master false) ++ .dial master true :: .register master c r :: tl) →
      m = master ∧ b = c ∧ ok = r ∧ h2 = tl ∧ h1 = .listen a :: (List.replicate i (.dial master false) ++ [.dial master true]) := by
    intro i a c r tl ht eh
    rw [eh] at e
    have nr : ∀ x ∈ Act.listen a :: (List.replicate i (Act.dial master false) ++ [Act.dial master true]), ∀ m b ok, x ≠ Act.register m b ok := by
      intro x hx m b ok ex
      rw [ex] at hx
      rcases List.mem_cons.mp hx with hx | hx
      · cases hx
      · rcases List.mem_append.mp hx with hx | hx
        · cases mem_replicate_dial hx
        · cases List.mem_singleton.mp hx
    have e' : (Act.listen a :: (List.replicate i (Act.dial master false) ++ [Act.dial master true])) ++ .register master c r :: tl =
        h1 ++ .register m b ok :: h2 := by rw [← e]; simp
    obtain ⟨u, hu⟩ | ⟨u, hu⟩ := List.append_eq_append_iff.mp e'
    · obtain ⟨hu1, hu2⟩ := hu
      cases u with
      | nil =>
        rw [List.nil_append] at hu2
        injection hu2 with q1 q2
        injection q1 with q3 q4 q5
        refine ⟨q3.symm, q4.symm, q5.symm, q2.symm, by rw [hu1, List.append_nil]⟩
      | cons x u =>
        rw [List.cons_append] at hu2
        injection hu2 with q1 q2
        have : Act.register m b ok ∈ tl := by rw [q2]; simp
        exact absurd rfl (ht _ this m b ok)
    · obtain ⟨hu1, hu2⟩ := hu
      cases u with
      | nil =>
        rw [List.nil_append] at hu2
        injection hu2 with q1 q2
        injection q1 with q3 q4 q5
        refine ⟨q3, q4, q5, q2, by rw [hu1, List.append_nil]⟩
      | cons x u =>
        rw [List.cons_append] at hu2
        injection hu2 with q1 q2
        have : Act.register m b ok ∈ Act.listen a :: (List.replicate i (Act.dial master false) ++ [Act.dial master true]) := by
          rw [hu1, ← q1]; simp
        exact absurd rfl (nr _ this m b ok)
  have none : (∀ x ∈ h, ∀ m b ok, x ≠ Act.register m b ok) → False := fun hn => hn (.register m b ok) (by rw [e]; simp) m b ok rfl
  have fin : ∀ (i : Nat) (a : Bytes) (ifs) (r : Bool) (tl : List Act), master ≠ [] → env.register = r → env.ifaces = some ifs →
      (∀ x ∈ tl, ∀ m b ok, x ≠ Act.register m b ok) → (tl = [] ∨ (r = true ∧ tl = [.serveAgent])) →
      h = .listen a :: (List.replicate i (.dial master false) ++ .dial master true :: .register master (getAddress a ifs) r :: tl) →
      master ≠ [] ∧ m = master ∧ ok = env.register ∧ (∃ a ifs, env.ifaces = some ifs ∧ .listen a ∈ h1 ∧ b = getAddress a ifs) ∧
      (∀ m' b' ok', Act.register m' b' ok' ∉ h1 ∧ Act.register m' b' ok' ∉ h2) ∧ (h2 = [] ∨ (ok = true ∧ h2 = [.serveAgent])) := by
    intro i a ifs r tl hm hg hi ht htl eh
    obtain ⟨rfl, rfl, rfl, rfl, rfl⟩ := key i a _ r tl ht eh
    refine ⟨hm, rfl, hg.symm, ⟨a, ifs, hi, by simp, rfl⟩, fun m' b' ok' => ⟨?_, fun hx => ht _ hx _ _ _ rfl⟩, htl⟩
    intro hx
    rcases List.mem_cons.mp hx with hx | hx
    · cases hx
    · rcases List.mem_append.mp hx with hx | hx
      · cases mem_replicate_dial hx
      · cases List.mem_singleton.mp hx
  have sh := run_shape hr
  cases s with
  | start => exact (none (by unfold Shape at sh; rw [sh]; nofun)).elim
  | bound a =>
    exact (none (by obtain ⟨-, rfl⟩ := sh; intro x hx m b ok ex; rw [List.mem_singleton.mp hx] at ex; cases ex)).elim
  | dialling b' i =>
    refine (none ?_).elim
    obtain ⟨-, -, -, a, ifs, -, -, -, rfl⟩ := sh
    intro x hx m b ok ex
    rw [ex] at hx
    rcases List.mem_cons.mp hx with hx | hx
    · cases hx
    · cases mem_replicate_dial hx
  | connected b' =>
    refine (none ?_).elim
    obtain ⟨-, i, a, ifs, -, -, -, -, -, rfl⟩ := sh
    intro x hx m b ok ex
    rw [ex] at hx
    rcases List.mem_cons.mp hx with hx | hx
    · cases hx
    · rcases List.mem_append.mp hx with hx | hx
      · cases mem_replicate_dial hx
      · cases List.mem_singleton.mp hx
  | ready =>
    obtain ⟨hm, i, a, ifs, -, -, -, hi, hg, eh⟩ := sh
    exact fin i a ifs true [] hm hg hi (by nofun) (Or.inl rfl) eh
  | done =>
    rcases sh with ⟨-, rfl⟩ | ⟨a, -, -, rfl⟩ | ⟨a, -, -, -, rfl⟩ | ⟨hm, i, a, ifs, -, -, -, hi, hh⟩
    · exact (none (by intro x hx m b ok ex; rw [List.mem_singleton.mp hx] at ex; cases ex)).elim
    · exact (none (by intro x hx m b ok ex; rw [ex] at hx; simp at hx)).elim
    · exact (none (by intro x hx m b ok ex; rw [ex] at hx; simp at hx)).elim
    · rcases hh with ⟨hg, eh⟩ | ⟨hg, eh⟩
      · exact fin i a ifs true [.serveAgent] hm hg hi
          (by intro x hx m b ok ex; rw [List.mem_singleton.mp hx] at ex; cases ex) (Or.inr ⟨rfl, rfl⟩) eh
      · exact fin i a ifs false [] hm hg hi (by nofun) (Or.inl rfl) eh

/-- **C101.** A process serves slices iff it was started as an agent, can listen, can list the interfaces, one of its attempts to dial succeeds
    and the master accepts its registration. It has then registered before it serves. -/
theorem serves_agent_iff (env : ServerEnv) (master : Bytes) :
    (∃ h s, ServerRun env master h s ∧ .serveAgent ∈ h) ↔
      master ≠ [] ∧ env.listen ≠ none ∧ env.ifaces ≠ none ∧ (∃ i, env.dial i = true) ∧ env.register = true := by
  constructor
  · rintro ⟨h, s, hr, hm⟩
    have sh := run_shape hr
    have nd : ∀ (i : Nat) (a : Bytes) (tl : List Act), .serveAgent ∈ Act.listen a :: (List.replicate i (Act.dial master false) ++ tl) →
        .serveAgent ∈ tl := by
      intro i a tl hx
      rcases List.mem_cons.mp hx with hx | hx
      · cases hx
      · rcases List.mem_append.mp hx with hx | hx
        · cases mem_replicate_dial hx
        · exact hx
    cases s with
    | start => unfold Shape at sh; rw [sh] at hm; cases hm
    | bound a => obtain ⟨-, rfl⟩ := sh; simp at hm
    | dialling b i =>
      obtain ⟨-, -, -, a, ifs, -, -, -, rfl⟩ := sh
      rcases List.mem_cons.mp hm with hx | hx
      · cases hx
      · cases mem_replicate_dial hx
    | connected b => obtain ⟨-, i, a, ifs, -, -, -, -, -, rfl⟩ := sh; have := nd i a _ hm; simp at this
    | ready => obtain ⟨-, i, a, ifs, -, -, -, -, -, rfl⟩ := sh; have := nd i a _ hm; simp at this
    | done =>
      rcases sh with ⟨-, rfl⟩ | ⟨a, -, -, rfl⟩ | ⟨a, -, -, -, rfl⟩ | ⟨hm', i, a, ifs, hf, hd, hl, hi, hh⟩
      · simp at hm
      · simp at hm
      · simp at hm
      · rcases hh with ⟨hg, rfl⟩ | ⟨hg, rfl⟩
        · exact ⟨hm', by rw [hl]; nofun, by rw [hi]; nofun, ⟨i, hd⟩, hg⟩
        · have := nd i a _ hm; simp at this
  · rintro ⟨hm, hl, hi, ⟨i, hd⟩, hg⟩
    obtain ⟨a, hl⟩ := Option.ne_none_iff_exists'.mp hl
    obtain ⟨ifs, hi⟩ := Option.ne_none_iff_exists'.mp hi
    have h1 : ServerRun env master [.listen a] (.bound a) := .step .nil (.listen a hl)
    have h2 : ∃ h, ServerRun env master h (.connected (getAddress a ifs)) := by
      have s0 := ServerRun.step h1 (ServerStep.dial0 a ifs hm hi)
      have go : ∀ n, (∃ h, ServerRun env master h (.connected (getAddress a ifs))) ∨ ∃ h, ServerRun env master h (.dialling (getAddress a ifs) (n + 1)) := by
        intro n
        induction n with
        | zero =>
          split at s0
          · exact Or.inl ⟨_, s0⟩
          · exact Or.inr ⟨_, s0⟩
        | succ n ih =>
          rcases ih with ih | ⟨h, ih⟩
          · exact Or.inl ih
          · have s1 := ServerRun.step ih (ServerStep.redial (env := env) (master := master) _ (n + 1))
            split at s1
            · exact Or.inl ⟨_, s1⟩
            · exact Or.inr ⟨_, s1⟩
      rcases go i with h | ⟨h, hr⟩
      · exact h
      · have := (run_shape hr).2.2.1 i (by omega)
        rw [hd] at this
        cases this
    obtain ⟨h, h2⟩ := h2
    have h3 := ServerRun.step h2 (ServerStep.register (getAddress a ifs))
    rw [hg, if_pos rfl] at h3
    have h4 := ServerRun.step h3 ServerStep.serve
    exact ⟨_, _, h4, by simp⟩

/-- **C101.** A process started without -master serves jobs as soon as it listens and never registers; no process serves both. -/
theorem serves_master_iff (env : ServerEnv) (master : Bytes) :
    ((∃ h s, ServerRun env master h s ∧ .serveMaster ∈ h) ↔ master = [] ∧ env.listen ≠ none) ∧
    ∀ h s, ServerRun env master h s → .serveMaster ∈ h → (∀ m b ok, Act.register m b ok ∉ h) ∧ .serveAgent ∉ h := by
  have main : ∀ h s, ServerRun env master h s → Act.serveMaster ∈ h → master = [] ∧ ∃ a, env.listen = some a ∧ h = [.listen a, .serveMaster] := by
    intro h s hr hm
    have sh := run_shape hr
    have nd : ∀ (i : Nat) (a : Bytes) (tl : List Act), .serveMaster ∈ Act.listen a :: (List.replicate i (Act.dial master false) ++ tl) →
        .serveMaster ∈ tl := by
      intro i a tl hx
      rcases List.mem_cons.mp hx with hx | hx
      · cases hx
      · rcases List.mem_append.mp hx with hx | hx
        · cases mem_replicate_dial hx
        · exact hx
    cases s with
    | start => unfold Shape at sh; rw [sh] at hm; cases hm
    | bound a => obtain ⟨-, rfl⟩ := sh; simp at hm
    | dialling b i =>
      obtain ⟨-, -, -, a, ifs, -, -, -, rfl⟩ := sh
      rcases List.mem_cons.mp hm with hx | hx
      · cases hx
      · cases mem_replicate_dial hx
    | connected b => obtain ⟨-, i, a, ifs, -, -, -, -, -, rfl⟩ := sh; have := nd i a _ hm; simp at this
    | ready => obtain ⟨-, i, a, ifs, -, -, -, -, -, rfl⟩ := sh; have := nd i a _ hm; simp at this
    | done =>
      rcases sh with ⟨-, rfl⟩ | ⟨a, hl, hm', rfl⟩ | ⟨a, -, -, -, rfl⟩ | ⟨-, i, a, ifs, -, -, -, -, hh⟩
      · simp at hm
      · exact ⟨hm', a, hl, rfl⟩
      · simp at hm
      · rcases hh with ⟨-, rfl⟩ | ⟨-, rfl⟩
        · have := nd i a _ hm; simp at this
        · have := nd i a _ hm; simp at this
  refine ⟨⟨?_, ?_⟩, ?_⟩
  · rintro ⟨h, s, hr, hm⟩
    obtain ⟨e, a, hl, -⟩ := main h s hr hm
    exact ⟨e, by rw [hl]; nofun⟩
  · rintro ⟨e, hl⟩
    obtain ⟨a, hl⟩ := Option.ne_none_iff_exists'.mp hl
    exact ⟨_, _, .step (.step .nil (.listen a hl)) (.master a e), by simp⟩
  · intro h s hr hm
    obtain ⟨e, a, hl, rfl⟩ := main h s hr hm
    exact ⟨fun m b ok => by simp, by simp⟩

/-- **C101.** While the master cannot be dialled, an agent neither gives up nor registers: every number of failed attempts is followed by
    another. But a registration that is refused is not repeated. -/
theorem waits_for_dial {env : ServerEnv} {master : Bytes} (hd : ∀ i, env.dial i = false) {h : List Act} {s : Pc}
    (hr : ServerRun env master h s) (hm : master ≠ []) (hl : env.listen ≠ none) (hi : env.ifaces ≠ none) :
    (∃ a t, ServerStep env master s a t) ∧ .exit ∉ h ∧ ∀ m b ok, Act.register m b ok ∉ h := by
  obtain ⟨a, hl⟩ := Option.ne_none_iff_exists'.mp hl
  obtain ⟨ifs, hi⟩ := Option.ne_none_iff_exists'.mp hi
  have sh := run_shape hr
  cases s with
  | start =>
    unfold Shape at sh
    subst sh
    exact ⟨⟨_, _, .listen a hl⟩, by nofun, by nofun⟩
  | bound a' =>
    obtain ⟨-, rfl⟩ := sh
    exact ⟨⟨_, _, .dial0 a' ifs hm hi⟩, by simp, by simp⟩
  | dialling b i =>
    obtain ⟨-, -, -, a', ifs', -, -, -, rfl⟩ := sh
    refine ⟨⟨_, _, .redial b i⟩, ?_, ?_⟩
    · intro hx
      rcases List.mem_cons.mp hx with hx | hx
      · cases hx
      · cases mem_replicate_dial hx
    · intro m b ok hx
      rcases List.mem_cons.mp hx with hx | hx
      · cases hx
      · cases mem_replicate_dial hx
  | connected b => obtain ⟨-, i, a', ifs', -, h1, -⟩ := sh; rw [hd] at h1; cases h1
  | ready => obtain ⟨-, i, a', ifs', -, h1, -⟩ := sh; rw [hd] at h1; cases h1
  | done =>
    rcases sh with ⟨h1, -⟩ | ⟨a', -, h1, -⟩ | ⟨a', -, -, h1, -⟩ | ⟨-, i, a', ifs', -, h1, -⟩
    · rw [hl] at h1; cases h1
    · exact absurd h1 hm
    · rw [hi] at h1; cases h1
    · rw [hd] at h1; cases h1

/-- An agent on 10.0.0.7 that reaches its master at the third attempt. -/
def exServer : ServerEnv :=
  { listen := some (ascii "[::]:4711"), ifaces := some [some [.ipNet (ascii "127.0.0.1"), .ipNet (ascii "10.0.0.7")]]
    dial := fun i => i == 2, register := true }

example : ∃ h s, ServerRun exServer (ascii "10.0.0.1:45326") h s ∧ .serveAgent ∈ h :=
  (serves_agent_iff _ _).mpr ⟨by decide, nofun, nofun, ⟨2, rfl⟩, rfl⟩

example : getAddress (ascii "[::]:4711") [some [.ipNet (ascii "127.0.0.1"), .ipNet (ascii "10.0.0.7")]] = ascii "10.0.0.7:4711" := by
  decide

example : ∃ h s, ServerRun exServer [] h s ∧ .serveMaster ∈ h := (serves_master_iff _ _).1.mpr ⟨rfl, nofun⟩

end Net
end StlDice
