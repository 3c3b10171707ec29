import Verif.Model.StlDiceHost

/-! # C131: the servers of stldice and their command lines -/

namespace StlDice
namespace Slave

variable {F : Type}

/-- The same events, but for the arguments the servers are started with. -/
inductive SameButArgs : List (HostEvent F) → List (HostEvent F) → Prop
  | nil : SameButArgs [] []
  | start {es fs} (pid : Nat) (k : Kind) (args args' : List Bytes) (h : SameButArgs es fs) :
      SameButArgs (.start pid k args :: es) (.start pid k args' :: fs)
  | same {es fs} (e : HostEvent F) (h : SameButArgs es fs) : SameButArgs (e :: es) (e :: fs)

theorem listenAddr_fixed (k : Kind) (args : List Bytes) : listenAddr k args = k.dflt := rfl

/-- **C131.** The servers do nothing with their arguments: started with any others, every history goes as it went. -/
theorem server_args_ignored {h h' : Host F} {es fs : List (HostEvent F)} (hs : SameButArgs es fs) (hr : HostRun h es h') :
    HostRun h fs h' := by
  induction hs generalizing h with
  | nil => exact hr
  | same e hs ih =>
    cases hr with
    | cons h1 h2 => exact .cons h1 (ih h2)
  | start pid k args args' hs ih =>
    cases hr with
    | cons h1 h2 =>
      refine .cons ?_ (ih h2)
      cases h1 with
      | listen hp hf => exact HostStep.listen (args := args') hp hf
      | failed hp hf => exact HostStep.failed (args := args') hp hf

/-- Every server that runs holds its address, and no process runs two servers. -/
def HostOk (h : Host F) : Prop := (∀ p ∈ h.procs, h.owner p.2.dflt = some p.1) ∧ h.procs.Pairwise fun p q => p.1 ≠ q.1

theorem dflt_inj {j k : Kind} (h : j.dflt = k.dflt) : j = k := by
  cases j <;> cases k <;> first | rfl | exact absurd h (by decide)

theorem hostOk_step {h h' : Host F} {e : HostEvent F} (ho : HostOk h) (hs : HostStep h e h') : HostOk h' := by
  obtain ⟨h1, h2⟩ := ho
  cases hs with
  | @listen pid k args hp hf =>
    rw [listenAddr_fixed] at hf
    refine ⟨?_, List.pairwise_cons.mpr ⟨fun p hm he => hp.2 p hm he.symm, h2⟩⟩
    intro p hm
    rcases List.mem_cons.mp hm with rfl | hm
    · exact if_pos rfl
    · have := h1 p hm
      show (if p.2.dflt = listenAddr k args then some pid else h.owner p.2.dflt) = some p.1
      rw [listenAddr_fixed]
      by_cases he : p.2.dflt = k.dflt
      · rw [he, hf] at this
        cases this
      · rw [if_neg he, this]
  | failed _ _ => exact ⟨h1, h2⟩
  | @take pid a hp hf =>
    refine ⟨fun p hm => ?_, h2⟩
    show (if p.2.dflt = a then some pid else h.owner p.2.dflt) = some p.1
    have := h1 p hm
    by_cases he : p.2.dflt = a
    · rw [he, hf] at this
      cases this
    · rw [if_neg he, this]
  | @free pid a hp hf =>
    refine ⟨fun p hm => ?_, h2⟩
    show (if p.2.dflt = a then none else h.owner p.2.dflt) = some p.1
    have := h1 p hm
    by_cases he : p.2.dflt = a
    · rw [he, hf] at this
      injection this with this
      exact absurd this.symm (hp p hm)
    · rw [if_neg he, this]
  | @stop pid k hp =>
    refine ⟨fun p hm => ?_, h2.filter _⟩
    obtain ⟨hm, hne⟩ := List.mem_filter.mp hm
    have hne : p.1 ≠ pid := by simpa using hne
    show (if h.owner p.2.dflt = some pid then none else h.owner p.2.dflt) = some p.1
    rw [h1 p hm, if_neg fun he => hne (Option.some.inj he)]
  | ask _ => exact ⟨h1, h2⟩

theorem hostOk_run {h h' : Host F} {es : List (HostEvent F)} (ho : HostOk h) (hr : HostRun h es h') : HostOk h' := by
  induction hr with
  | nil => exact ho
  | cons hs _ ih => exact ih (hostOk_step ho hs)

theorem hostOk_initial {h : Host F} (hi : h.Initial) : HostOk h := by
  unfold HostOk
  rw [hi.1]
  exact ⟨fun _ hm => absurd hm List.not_mem_nil, List.Pairwise.nil⟩

/-- **C131.** After any history, a master that runs listens at `:5334` and a slave that runs at `:5333`, whatever
    their arguments. -/
theorem server_address {h h' : Host F} {es : List (HostEvent F)} (hi : h.Initial) (hr : HostRun h es h') {pid : Nat} {k : Kind}
    (hm : (pid, k) ∈ h'.procs) :
    (k = .master → h'.owner (ascii ":5334") = some pid) ∧ (k = .slave → h'.owner (ascii ":5333") = some pid) := by
  have := (hostOk_run (hostOk_initial hi) hr).1 _ hm
  constructor <;> rintro rfl <;> exact this

/-- **C131.** So there is never more than one master, nor more than one slave, on a host. -/
theorem one_server_per_host {h h' : Host F} {es : List (HostEvent F)} (hi : h.Initial) (hr : HostRun h es h') {p q : Nat} {k : Kind}
    (hp : (p, k) ∈ h'.procs) (hq : (q, k) ∈ h'.procs) : p = q := by
  have ho := hostOk_run (hostOk_initial hi) hr
  have h1 := ho.1 _ hp
  rw [ho.1 _ hq] at h1
  exact (Option.some.inj h1).symm

/-- **C131.** While one runs, every further start of its kind, with any arguments, ends with an error and changes
    nothing else. -/
theorem second_server_fails {h h₁ h₂ : Host F} {es : List (HostEvent F)} (hi : h.Initial) (hr : HostRun h es h₁) {p pid : Nat} {k : Kind}
    (hp : (p, k) ∈ h₁.procs) {args : List Bytes} (hs : HostStep h₁ (.start pid k args) h₂) :
    h₂ = { h₁ with failed := pid :: h₁.failed } := by
  have h1 := (hostOk_run (hostOk_initial hi) hr).1 _ hp
  cases hs with
  | listen hf hn =>
    rw [listenAddr_fixed] at hn
    rw [hn] at h1
    cases h1
  | failed hf hn => rfl

/-- **C131.** A start succeeds exactly if nobody listens at the one address; no argument can make it another. -/
theorem server_starts_iff {h : Host F} {pid : Nat} {k : Kind} {args : List Bytes} (hf : h.Fresh pid) :
    (∃ h', HostStep h (.start pid k args) h' ∧ (pid, k) ∈ h'.procs) ↔
      h.owner (match k with | .master => ascii ":5334" | .slave => ascii ":5333") = none := by
  have he : listenAddr k args = (match k with | .master => ascii ":5334" | .slave => ascii ":5333") := by cases k <;> rfl
  rw [← he]
  constructor
  · rintro ⟨h', hs, hm⟩
    cases hs with
    | listen _ hn => exact hn
    | failed => exact absurd rfl (hf.2 _ hm)
  · intro hn
    exact ⟨_, .listen hf hn, List.mem_cons_self ..⟩

/-- **C131.** Whatever masters are asked, in whatever order and after whatever, every reply is empty: no STL mesh is
    ever given back. -/
theorem master_replies_empty {h h' : Host F} {es : List (HostEvent F)} (hi : h.Initial) (hr : HostRun h es h') :
    ∀ r ∈ h'.replies, r.2.2 = .ok [] := by
  suffices ∀ {h h' : Host F} {es : List (HostEvent F)}, HostRun h es h' → (∀ r ∈ h.replies, r.2.2 = .ok []) →
      ∀ r ∈ h'.replies, r.2.2 = .ok [] by
    refine this hr ?_
    rw [hi.2.2]
    exact fun _ hm => absurd hm List.not_mem_nil
  intro h h' es hr
  induction hr with
  | nil => exact id
  | cons hs _ ih =>
    intro h0
    refine ih ?_
    cases hs with
    | ask hp =>
      intro r hm
      rcases List.mem_cons.mp hm with rfl | hm
      · rfl
      · exact h0 r hm
    | _ => exact h0

/-- **C131.** A request to a master has no effect but its reply: the rest of the history goes as it would without it. -/
theorem master_forgets {h h' : Host F} {pid : Nat} {q : Request F} {es : List (HostEvent F)}
    (hr : HostRun h (.ask pid q :: es) h') :
    ∃ h₁, HostRun h es h₁ ∧ h₁.owner = h'.owner ∧ h₁.procs = h'.procs ∧ h₁.failed = h'.failed ∧
      h'.replies.Perm ((pid, q, .ok []) :: h₁.replies) := by
  suffices key : ∀ {es : List (HostEvent F)} {g h g' : Host F}, HostRun g es g' → h.owner = g.owner → h.procs = g.procs → h.failed = g.failed →
      g.replies.Perm ((pid, q, .ok []) :: h.replies) →
      ∃ h', HostRun h es h' ∧ h'.owner = g'.owner ∧ h'.procs = g'.procs ∧ h'.failed = g'.failed ∧
        g'.replies.Perm ((pid, q, .ok []) :: h'.replies) by
    cases hr with
    | cons hs hr =>
      cases hs with
      | ask hp => exact key hr rfl rfl rfl (List.Perm.refl _)
  intro es g h g' hr
  induction hr generalizing h with
  | nil g => exact fun h1 h2 h3 h4 => ⟨h, .nil _, h1, h2, h3, h4⟩
  | @cons g g₁ g₂ e es hs _ ih =>
    intro h1 h2 h3 h4
    obtain ⟨o, p, f, r⟩ := h
    obtain ⟨o', p', f', r'⟩ := g
    dsimp only at h1 h2 h3 h4
    subst h1 h2 h3
    cases hs with
    | listen hp hf =>
      obtain ⟨k, k1, k2⟩ := ih (h := ⟨_, _, _, r⟩) rfl rfl rfl h4
      exact ⟨k, .cons (HostStep.listen (h := ⟨o, p, f, r⟩) hp hf) k1, k2⟩
    | failed hp hf =>
      obtain ⟨k, k1, k2⟩ := ih (h := ⟨_, _, _, r⟩) rfl rfl rfl h4
      exact ⟨k, .cons (HostStep.failed (h := ⟨o, p, f, r⟩) hp hf) k1, k2⟩
    | take hp hf =>
      obtain ⟨k, k1, k2⟩ := ih (h := ⟨_, _, _, r⟩) rfl rfl rfl h4
      exact ⟨k, .cons (HostStep.take (h := ⟨o, p, f, r⟩) hp hf) k1, k2⟩
    | free hp hf =>
      obtain ⟨k, k1, k2⟩ := ih (h := ⟨_, _, _, r⟩) rfl rfl rfl h4
      exact ⟨k, .cons (HostStep.free (h := ⟨o, p, f, r⟩) hp hf) k1, k2⟩
    | stop hp =>
      obtain ⟨k, k1, k2⟩ := ih (h := ⟨_, _, _, r⟩) rfl rfl rfl h4
      exact ⟨k, .cons (HostStep.stop (h := ⟨o, p, f, r⟩) hp) k1, k2⟩
    | @ask pid' q' hp =>
      obtain ⟨k, k1, k2⟩ := ih (h := ⟨_, _, _, (pid', q', masterReply q') :: r⟩) rfl rfl rfl ((h4.cons _).trans (List.Perm.swap _ _ _))
      exact ⟨k, .cons (HostStep.ask (h := ⟨o, p, f, r⟩) hp) k1, k2⟩

/-! ## The hypotheses are met -/

/-- A host without servers. -/
def emptyHost : Host F := ⟨fun _ => none, [], [], []⟩

/-- A master with `-port :6000`, then one with `-port :6001`, and one that asks for help: the first runs, at `:5334`, the others fail;
    after it was stopped the next one runs. -/
example (q : Request F) : ∃ h₁ h₂ : Host F, (emptyHost : Host F).Initial ∧
    HostRun emptyHost [.start 1 .master [ascii "-port", ascii ":6000"], .start 2 .master [ascii "-port", ascii ":6001"], .start 3 .master [ascii "-h"], .ask 1 q] h₁ ∧
    h₁.procs = [(1, .master)] ∧ h₁.owner (ascii ":6000") = none ∧ h₁.failed = [3, 2] ∧ h₁.replies = [(1, q, .ok [])] ∧
    HostRun h₁ [.stop 1, .start 4 .master []] h₂ ∧ h₂.procs = [(4, .master)] := by
  have h0 : ∀ n, (emptyHost : Host F).Fresh n := fun n => ⟨fun _ => nofun, fun _ => nofun⟩
  have s1 := HostStep.listen (k := .master) (args := [ascii "-port", ascii ":6000"]) (h0 1) rfl
  have f : ∀ n, n ≠ 1 → ∀ l r, ({ (emptyHost : Host F) with
      owner := fun a => if a = listenAddr .master [ascii "-port", ascii ":6000"] then some 1 else none, procs := [(1, .master)], failed := l, replies := r } : Host F).Fresh n := by
    intro n hn l r
    refine ⟨fun a => ?_, fun p hp => ?_⟩
    · show (if _ then some 1 else none) ≠ some n
      split
      · exact fun h => hn (Option.some.inj h).symm
      · exact nofun
    · rw [List.mem_singleton.mp hp]
      exact fun h => hn h.symm
  have s2 := HostStep.failed (k := .master) (args := [ascii "-port", ascii ":6001"]) (p := 1) (f 2 (by decide) [] []) (by simp only [listenAddr_fixed, if_true])
  have s3 := HostStep.failed (k := .master) (args := [ascii "-h"]) (p := 1) (f 3 (by decide) [2] []) (by simp only [listenAddr_fixed, if_true])
  have s4 := HostStep.ask (h := { (emptyHost : Host F) with
      owner := fun a => if a = listenAddr .master [ascii "-port", ascii ":6000"] then some 1 else none, procs := [(1, .master)], failed := [3, 2], replies := [] })
    (pid := 1) (q := q) (List.mem_singleton.mpr rfl)
  refine ⟨_, _, ⟨rfl, rfl, rfl⟩, .cons s1 (.cons s2 (.cons s3 (.cons s4 (.nil _)))), rfl, rfl, rfl, rfl,
    .cons (.stop (k := .master) (List.mem_singleton.mpr rfl)) (.cons (.listen (k := .master) ⟨fun a => ?_, fun p hp => ?_⟩ ?_) (.nil _)), rfl⟩
  · by_cases hb : a = listenAddr .master [ascii "-port", ascii ":6000"] <;> simp [hb, emptyHost]
  · exact absurd hp List.not_mem_nil
  · rfl

/-- A master and a slave run side by side. -/
example : ∃ h : Host F, HostRun emptyHost [.start 1 .master [], .start 2 .slave []] h ∧ h.procs = [(2, .slave), (1, .master)] := by
  refine ⟨_, .cons (.listen (k := .master) ⟨fun _ => nofun, fun _ => nofun⟩ rfl) (.cons (.listen (k := .slave) ⟨fun a => ?_, fun p hp => ?_⟩ rfl) (.nil _)), rfl⟩
  · show (if _ then some 1 else none) ≠ some 2
    split
    · exact fun h => absurd (Option.some.inj h) (by decide)
    · exact nofun
  · rw [List.mem_singleton.mp hp]
    decide

end Slave
end StlDice
