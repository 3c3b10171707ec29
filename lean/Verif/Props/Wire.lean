import Verif.Model.Wire
import Verif.Props.SvxNetRuns
import Verif.Props.MasterProgress
import Mathlib.Data.Finset.Card

/-! # C122: what one job can do to the stl2svx service -/

namespace StlDice

namespace Spec
open BinVOX

/-- A corner of some triangle is absent. -/
def LacksCorner {F : Type} (f : List (Tri (Option (Vec F)))) : Prop :=
  ∃ t ∈ f, t.V1 = none ∨ t.V2 = none ∨ t.V3 = none

/-- The file `f` has all corners, and they are these. -/
def Spells {F : Type} (f : List (Tri (Option (Vec F)))) (ts : List (Tri (Vec F))) : Prop :=
  f = ts.map fun t => ⟨some t.V1, some t.V2, some t.V3⟩

/-- What happened so far, oldest first, and the state it led to. -/
inductive History {F : Type} (P : MState F → MLabel F → Prop) : List (MLabel F) → MState F → Prop
  | init : History P [] .init
  | step {ls : List (MLabel F)} {s s' : MState F} {l : MLabel F} (h : History P ls s) (hp : P s l) (hs : MStep s l s') :
      History P (ls ++ [l]) s'

/-- How often an agent registered. -/
def registrations {F : Type} : List (MLabel F) → Nat
  | [] => 0
  | .register _ :: ls => registrations ls + 1
  | _ :: ls => registrations ls

/-- The call for slice `z` of job `i` is running or has failed. -/
def Taken {F : Type} (s : MState F) (i z : Nat) : Prop :=
  ∃ J, s.job i = some J ∧ ((∃ a, J.task z = .busy a) ∨ J.task z = .dropped)

end Spec

namespace Net
open Spec BinVOX

variable {F : Type}

/-! ## Messages with parts missing -/

theorem corners_iff {t : Tri (Option (Vec F))} {u : Tri (Vec F)} :
    corners t = some u ↔ t = ⟨some u.V1, some u.V2, some u.V3⟩ := by
  obtain ⟨a, b, c⟩ := t
  obtain ⟨x, y, w⟩ := u
  cases a <;> cases b <;> cases c <;> simp [corners]

theorem corners_none {t : Tri (Option (Vec F))} : corners t = none ↔ t.V1 = none ∨ t.V2 = none ∨ t.V3 = none := by
  obtain ⟨a, b, c⟩ := t
  cases a <;> cases b <;> cases c <;> simp [corners]

theorem decode_iff {f : List (Tri (Option (Vec F)))} : ∀ {ts : List (Tri (Vec F))}, decode f = some ts ↔ Spells f ts := by
  induction f with
  | nil =>
    intro ts
    cases ts <;> simp [decode, Spells]
  | cons t f ih =>
    intro ts
    constructor
    · intro h
      simp only [decode] at h
      split at h
      · cases h
      · rename_i t' ht
        split at h
        · cases h
        · rename_i ts' hts
          injection h with h
          subst h
          have h1 := corners_iff.mp ht
          have h2 := ih.mp hts
          unfold Spells at h2 ⊢
          rw [h1, h2, List.map_cons]
    · intro h
      unfold Spells at h
      cases ts with
      | nil => cases h
      | cons u us =>
        rw [List.map_cons] at h
        injection h with h1 h2
        simp only [decode]
        rw [corners_iff.mpr h1, ih.mpr h2]

theorem decode_none {f : List (Tri (Option (Vec F)))} : decode f = none ↔ LacksCorner f := by
  induction f with
  | nil => simp [decode, LacksCorner]
  | cons t f ih =>
    simp only [decode]
    cases hc : corners t with
    | none =>
      refine ⟨fun _ => ⟨t, List.mem_cons_self, corners_none.mp hc⟩, fun _ => rfl⟩
    | some u =>
      have hn : ¬ (t.V1 = none ∨ t.V2 = none ∨ t.V3 = none) := by
        rw [← corners_none, hc]; intro h; cases h
      have hl : LacksCorner (t :: f) ↔ LacksCorner f := by
        constructor
        · rintro ⟨x, hx, h⟩
          rcases List.mem_cons.mp hx with rfl | hx
          · exact absurd h hn
          · exact ⟨x, hx, h⟩
        · rintro ⟨x, hx, h⟩
          exact ⟨x, List.mem_cons_of_mem _ hx, h⟩
      rw [hl, ← ih]
      cases decode f <;> simp

theorem decodeAll_none {fs : List (List (Tri (Option (Vec F))))} : decodeAll fs = none ↔ ∃ f ∈ fs, LacksCorner f := by
  induction fs with
  | nil => simp [decodeAll]
  | cons f fs ih =>
    simp only [decodeAll, List.exists_mem_cons_iff]
    rw [← ih, ← decode_none]
    cases decode f <;> cases decodeAll fs <;> simp

theorem decodeAll_iff {fs : List (List (Tri (Option (Vec F))))} : ∀ {tss : List (List (Tri (Vec F)))},
    decodeAll fs = some tss ↔ List.Forall₂ Spells fs tss := by
  induction fs with
  | nil =>
    intro tss
    cases tss with
    | nil => exact ⟨fun _ => .nil, fun _ => rfl⟩
    | cons a b =>
      constructor
      · intro h; cases h
      · intro h; cases h
  | cons f fs ih =>
    intro tss
    constructor
    · intro h
      simp only [decodeAll] at h
      split at h
      · cases h
      · rename_i ts ht
        split at h
        · cases h
        · rename_i tss' hts
          injection h with h
          subst h
          exact .cons (decode_iff.mp ht) (ih.mp hts)
    · intro h
      cases h with
      | cons h1 h2 =>
        simp only [decodeAll]
        rw [decode_iff.mpr h1, ih.mpr h2]

section
variable [GoFloat F] {lib : Lib F} {q : WireRequest F}

/-- **C122.** Exactly which messages end the master, with all its jobs: those whose first file has a triangle and either lacks a corner of
    some triangle, or is to be divided into zero parts along some axis. -/
theorem master_ends_iff : newJobWire lib q = .panic ↔ ∃ base cuts, q.StlFiles = base :: cuts ∧ base ≠ [] ∧
    (LacksCorner base ∨ q.NX = 0 ∨ q.NY = 0 ∨ q.NZ = 0) := by
  unfold newJobWire Lib.stlNewWire Lib.stlNew layout
  cases hq : q.StlFiles with
  | nil =>
    constructor
    · intro h; cases h
    · rintro ⟨base, cuts, h, _⟩; cases h
  | cons base cuts =>
    dsimp only
    have hex : (∃ b c, base :: cuts = b :: c ∧ b ≠ [] ∧ (LacksCorner b ∨ q.NX = 0 ∨ q.NY = 0 ∨ q.NZ = 0)) ↔
        base ≠ [] ∧ (LacksCorner base ∨ q.NX = 0 ∨ q.NY = 0 ∨ q.NZ = 0) := by
      constructor
      · rintro ⟨b, c, h, h2⟩
        injection h with h h'
        subst h
        exact h2
      · intro h
        exact ⟨base, cuts, rfl, h⟩
    rw [hex]
    by_cases hb : base = []
    · subst hb
      rw [if_pos List.length_nil]
      constructor
      · intro h; cases h
      · rintro ⟨h, _⟩; exact absurd rfl h
    · rw [if_neg (fun h => hb (List.eq_nil_of_length_eq_zero h))]
      cases hd : decode base with
      | none =>
        dsimp only
        exact ⟨fun _ => ⟨hb, .inl (decode_none.mp hd)⟩, fun _ => rfl⟩
      | some ts =>
        dsimp only
        have hl : ¬ LacksCorner base := by rw [← decode_none, hd]; intro h; cases h
        by_cases hz : q.NX = 0 ∨ q.NY = 0 ∨ q.NZ = 0
        · rw [if_pos hz]
          exact ⟨fun _ => ⟨hb, .inr hz⟩, fun _ => rfl⟩
        · rw [if_neg hz]
          constructor
          · intro h
            split at h
            · cases h
            · cases h
            · rename_i e
              split at e
              · cases e
              · cases e
              · rename_i e1
                split at e1 <;> cases e1
          · rintro ⟨_, h | h⟩
            · exact absurd h hl
            · exact absurd h hz

/-- **C122.** Exactly which messages the master makes a job of. -/
theorem master_accepts_iff {r : SvxReq F} : newJobWire lib q = .ok r ↔ ∃ base ts cuts, q.StlFiles = base :: cuts ∧ base ≠ [] ∧
    Spells base ts ∧ layout (lib.bbox ts) (boxScale (lib.bbox ts)) q.Dim q.NX q.NY q.NZ = .ok r.L ∧
    r = ⟨q.Dim, q.NX, q.NY, q.NZ, q.OutPrefix, r.L, lib.bbox ts⟩ := by
  unfold newJobWire Lib.stlNewWire Lib.stlNew
  cases hq : q.StlFiles with
  | nil =>
    constructor
    · intro h; cases h
    · rintro ⟨base, ts, cuts, h, _⟩; cases h
  | cons base cuts =>
    dsimp only
    constructor
    · intro h
      split at h
      · cases h
      · rename_i hb
        split at h
        · rename_i ts L hL
          injection h with h
          subst h
          split at hL
          · cases hL
          · rename_i ts' hts
            split at hL
            · rename_i L' hL'
              injection hL with hL
              injection hL with h1 h2
              subst h1 h2
              exact ⟨base, ts', cuts, rfl, fun h => hb (by rw [h]; rfl), decode_iff.mp hts, hL', rfl⟩
            · cases hL
            · cases hL
        · cases h
        · cases h
    · rintro ⟨base', ts, cuts', h, hb, hs, hL, hr⟩
      injection h with h1 h2
      subst h1 h2
      rw [if_neg (fun h => hb (List.eq_nil_of_length_eq_zero h)), decode_iff.mpr hs]
      dsimp only
      rw [hL]
      dsimp only
      rw [← hr]

/-- **C122.** Exactly which messages end an agent: some file lacks a corner, or all files are complete and one fails its own size check or a
    tile above the bottom row has something filled in its slice (C65). -/
theorem agent_ends_iff {r : SliceRequest F} {res : Option Image} (hr : AgentCall lib r res) :
    res = none ↔ (∃ f ∈ r.get.StlFiles, LacksCorner f) ∨ ∃ base cuts, List.Forall₂ Spells r.get.StlFiles (base :: cuts) ∧
      ((∃ f ∈ base :: cuts, ¬ ∃ L, layout (lib.bbox f) (boxScale (lib.bbox f)) r.get.Dim r.get.NX r.get.NY r.get.NZ = .ok L) ∨
       ∃ L, layout (lib.bbox base) (boxScale (lib.bbox base)) r.get.Dim r.get.NX r.get.NY r.get.NZ = .ok L ∧
        ∃ t, InDims r.get.NX r.get.NY r.get.NZ t ∧ t.Z ≠ 0 ∧
          ∃ f ∈ base :: cuts, ∃ x y, Filled (tileModel L (lib.bbox base) t) (lib.mesh f) r.z y x) := by
  unfold AgentCall at hr
  generalize r.get = q at hr ⊢
  unfold AgentWire at hr
  cases hd : decodeAll q.StlFiles with
  | none =>
    rw [hd] at hr
    exact ⟨fun _ => .inl (decodeAll_none.mp hd), fun _ => hr⟩
  | some files =>
    rw [hd] at hr
    dsimp only at hr
    have hno : ¬ ∃ f ∈ q.StlFiles, LacksCorner f := by rw [← decodeAll_none, hd]; intro h; cases h
    have hsp := decodeAll_iff.mp hd
    cases files with
    | nil =>
      obtain ⟨vs, hv, hm⟩ := hr
      cases hv
      obtain ⟨img, _, e⟩ := hm
      subst e
      constructor
      · intro h; cases h
      · rintro (h | ⟨base, cuts, h, _⟩)
        · exact absurd h hno
        · have := decodeAll_iff.mpr h
          rw [hd] at this
          cases this
    | cons base cuts =>
      rw [List.map_cons] at hr
      rw [agent_exits_iff _ _ _ _ _ _ _ _ hr]
      have hmem : ∀ (C : Mesh F × Box F → Prop), (∃ f ∈ (lib.mesh base, lib.bbox base) :: cuts.map (fun ts => (lib.mesh ts, lib.bbox ts)), C f) ↔
          ∃ f ∈ base :: cuts, C (lib.mesh f, lib.bbox f) := by
        intro C
        rw [← List.map_cons (f := fun ts => (lib.mesh ts, lib.bbox ts))]
        constructor
        · rintro ⟨f, hf, h⟩
          obtain ⟨g, hg, rfl⟩ := List.mem_map.mp hf
          exact ⟨g, hg, h⟩
        · rintro ⟨f, hf, h⟩
          exact ⟨_, List.mem_map_of_mem hf, h⟩
      simp only [hmem]
      constructor
      · intro h
        exact .inr ⟨base, cuts, hsp, h⟩
      · rintro (h | ⟨base', cuts', h, h2⟩)
        · exact absurd h hno
        · have := decodeAll_iff.mpr h
          rw [hd] at this
          injection this with this
          injection this with h1 h3
          subst h1 h3
          exact h2

/-- **C122.** Every message has an outcome at the agent. -/
theorem agent_call_defined (r : SliceRequest F) : ∃ res, AgentCall lib r res := by
  unfold AgentCall AgentWire
  cases decodeAll r.get.StlFiles with
  | none => exact ⟨none, rfl⟩
  | some files =>
    cases files with
    | nil => exact ⟨_, some [], .nil, _, ⟨_, List.Perm.refl _, rfl⟩, rfl⟩
    | cons base cuts => exact agent_slice_defined _ _ _ _ _ _ _

/-- The messages of stl2svx-client are those of `Request`, with all corners. -/
def Request.wire (q : Request F) : WireRequest F :=
  ⟨q.Dim, q.NX, q.NY, q.NZ, q.OutPrefix, q.StlFiles.map fun ts => ts.map fun t => ⟨some t.V1, some t.V2, some t.V3⟩⟩

omit [GoFloat F] in
theorem wire_decodes (q : Request F) : decodeAll q.wire.StlFiles = some q.StlFiles := by
  rw [decodeAll_iff]
  unfold Request.wire
  dsimp only
  induction q.StlFiles with
  | nil => exact .nil
  | cons f fs ih => exact .cons rfl ih

/-- **C122.** For the messages of stl2svx-client this is the model of C90. -/
theorem wire_agent (q : Request F) (z : Nat) (res : Option Image) : AgentWire lib q.wire z res ↔ Agent lib q z res := by
  unfold AgentWire Agent
  rw [wire_decodes]
  rfl

theorem wire_newJob (q : Request F) : newJobWire lib q.wire = newJob lib q := by
  unfold newJobWire newJob Lib.stlNewWire Request.wire
  dsimp only
  cases q.StlFiles with
  | nil => rfl
  | cons base cuts =>
    rw [List.map_cons]
    dsimp only
    rw [decode_iff.mpr (show Spells _ base from rfl), List.length_map]
    dsimp only
    cases base with
    | nil => rfl
    | cons t ts =>
      rw [if_neg (by rw [List.length_cons]; omega), if_neg (List.cons_ne_nil _ _)]
      cases lib.stlNew (t :: ts) q.Dim q.NX q.NY q.NZ <;> rfl

end

/-! ## Failed calls cost agents -/

theorem registrations_append (ls : List (MLabel F)) (l : MLabel F) :
    registrations (ls ++ [l]) = registrations ls + registrations [l] := by
  induction ls with
  | nil => simp [registrations]
  | cons x ls ih =>
    cases x <;> simp only [List.cons_append, registrations, ih] <;> omega

theorem history_reach {P : MState F → MLabel F → Prop} {ls : List (MLabel F)} {s : MState F} (h : History P ls s) : MReach P s := by
  induction h with
  | init => exact .init
  | step _ hp hs ih => exact .step ih hp hs

theorem reach_history {P : MState F → MLabel F → Prop} {s : MState F} (h : MReach P s) : ∃ ls, History P ls s := by
  induction h with
  | init => exact ⟨_, .init⟩
  | step _ hp hs ih =>
    obtain ⟨ls, h⟩ := ih
    exact ⟨_, .step h hp hs⟩

/-- The job of a state after a task was replaced. -/
theorem taken_set {s : MState F} {s' : MState F} {k x : Nat} {K : JobState F} {t : Task} (hk : s.job k = some K)
    (hs : s'.job = upd s.job k (some (K.setTask x t))) {i z : Nat} (hne : (i, z) ≠ (k, x)) : Taken s' i z ↔ Taken s i z := by
  unfold Taken
  rw [hs]
  by_cases hi : i = k
  · subst hi
    have hz : z ≠ x := fun h => hne (by rw [h])
    rw [upd_same, hk]
    have e : (K.setTask x t).task z = K.task z := upd_ne _ _ _ _ hz
    constructor
    · rintro ⟨J, h, h2⟩
      injection h with h
      subst h
      rw [e] at h2
      exact ⟨K, rfl, h2⟩
    · rintro ⟨J, h, h2⟩
      injection h with h
      subst h
      exact ⟨_, rfl, by rw [e]; exact h2⟩
  · rw [upd_ne _ _ _ _ hi]

theorem taken_phase {s : MState F} {s' : MState F} {k : Nat} {K : JobState F} {p : JobPhase} (hk : s.job k = some K)
    (hs : s'.job = upd s.job k (some { K with phase := p })) {i z : Nat} : Taken s' i z ↔ Taken s i z := by
  unfold Taken
  rw [hs]
  by_cases hi : i = k
  · subst hi
    rw [upd_same, hk]
    constructor
    · rintro ⟨J, h, h2⟩
      injection h with h
      subst h
      exact ⟨K, rfl, h2⟩
    · rintro ⟨J, h, h2⟩
      injection h with h
      subst h
      exact ⟨_, rfl, h2⟩
  · rw [upd_ne _ _ _ _ hi]

/-- **C122.** In every history, whatever happens: the idle agents, the calls that run and the calls that failed are together no more than the
    registrations.  Every failed call costs an agent, until somebody registers again. -/
theorem failed_calls_cost_agents {P : MState F → MLabel F → Prop} {ls : List (MLabel F)} {s : MState F} (h : History P ls s)
    (idle : Finset Bytes) (hi : ∀ a ∈ idle, s.idle a = true) (taken : Finset (Nat × Nat)) (ht : ∀ x ∈ taken, Taken s x.1 x.2) :
    idle.card + taken.card ≤ registrations ls := by
  induction h generalizing idle taken with
  | init =>
    have h1 : idle = ∅ := by
      apply Finset.eq_empty_of_forall_notMem
      intro a ha
      have := hi a ha
      cases this
    have h2 : taken = ∅ := by
      apply Finset.eq_empty_of_forall_notMem
      intro x hx
      obtain ⟨J, hJ, _⟩ := ht x hx
      cases hJ
    rw [h1, h2]
    exact Nat.le_refl 0
  | @step ls s s' l _ hp hs ih =>
    rw [registrations_append]
    have quiet : (∀ a ∈ idle, s.idle a = true) → (∀ x ∈ taken, Taken s x.1 x.2) →
        idle.card + taken.card ≤ registrations ls + registrations [l] :=
      fun h1 h2 => Nat.le_trans (ih idle h1 taken h2) (Nat.le_add_right _ _)
    cases hs with
    | register a =>
      have h1 := ih (idle.erase a) (by
        intro b hb
        obtain ⟨hne, hb⟩ := Finset.mem_erase.mp hb
        have := hi b hb
        dsimp only at this
        rwa [upd_ne _ _ _ _ hne] at this) taken ht
      have h2 : idle.card - 1 ≤ (idle.erase a).card := Finset.pred_card_le_card_erase
      simp only [registrations]
      omega
    | start k r hk =>
      refine quiet hi (fun x hx => ?_)
      obtain ⟨J, hJ, hb⟩ := ht x hx
      dsimp only at hJ
      by_cases he : x.1 = k
      · rw [he, upd_same] at hJ
        injection hJ with hJ
        subst hJ
        rcases hb with ⟨a, hb⟩ | hb <;> cases hb
      · rw [upd_ne _ _ _ _ he] at hJ
        exact ⟨J, hJ, hb⟩
    | manifest k w K hk hph hw => exact quiet hi (fun x hx => (taken_phase hk rfl).mp (ht x hx))
    | blanks k w K hk hph hw => exact quiet hi (fun x hx => (taken_phase hk rfl).mp (ht x hx))
    | finish k w K hk hph hall hw => exact quiet hi (fun x hx => (taken_phase hk rfl).mp (ht x hx))
    | take k x a K hk hph hx hwait ha =>
      have hna : a ∉ idle := by
        intro h
        have := hi a h
        dsimp only at this
        rw [upd_same] at this
        cases this
      have h1 := ih (insert a idle) (by
        intro b hb
        rcases Finset.mem_insert.mp hb with rfl | hb
        · exact ha
        · have := hi b hb
          dsimp only at this
          rwa [upd_ne _ _ _ _ (fun e => hna (by rw [← e]; assumption))] at this) (taken.erase (k, x)) (by
        intro y hy
        obtain ⟨hne, hy⟩ := Finset.mem_erase.mp hy
        exact (taken_set hk rfl hne).mp (ht y hy))
      have h2 : taken.card - 1 ≤ (taken.erase (k, x)).card := Finset.pred_card_le_card_erase
      rw [Finset.card_insert_of_notMem hna] at h1
      omega
    | dialErr k x a K hk hb =>
      have hn : (k, x) ∉ taken := by
        intro h
        obtain ⟨J, hJ, hb⟩ := ht _ h
        dsimp only at hJ
        rw [upd_same] at hJ
        injection hJ with hJ
        subst hJ
        have e : (K.setTask x .waiting).task x = .waiting := upd_same _ _ _
        dsimp only at hb
        rw [e] at hb
        rcases hb with ⟨_, hb⟩ | hb <;> cases hb
      refine quiet hi (fun y hy => (taken_set hk rfl ?_).mp (ht y hy))
      intro e
      have e : y = (k, x) := e
      exact hn (e ▸ hy)
    | sliceOk k x a png K hk hb =>
      have hn : (k, x) ∉ taken := by
        intro h
        obtain ⟨J, hJ, hb⟩ := ht _ h
        dsimp only at hJ
        rw [upd_same] at hJ
        injection hJ with hJ
        subst hJ
        have e : (K.setTask x (.writing png)).task x = .writing png := upd_same _ _ _
        dsimp only at hb
        rw [e] at hb
        rcases hb with ⟨_, hb⟩ | hb <;> cases hb
      have h1 := ih (idle.erase a) (by
        intro b hb
        obtain ⟨hne, hb⟩ := Finset.mem_erase.mp hb
        have := hi b hb
        dsimp only at this
        rwa [upd_ne _ _ _ _ hne] at this) (insert (k, x) taken) (by
        intro y hy
        rcases Finset.mem_insert.mp hy with rfl | hy
        · exact ⟨K, hk, .inl ⟨a, hb⟩⟩
        · refine (taken_set hk rfl ?_).mp (ht y hy)
          intro e
          have e : y = (k, x) := e
          exact hn (e ▸ hy))
      rw [Finset.card_insert_of_notMem hn] at h1
      have h2 : idle.card - 1 ≤ (idle.erase a).card := Finset.pred_card_le_card_erase
      omega
    | sliceErr k x a K hk hb =>
      refine quiet hi (fun y hy => ?_)
      by_cases he : y = (k, x)
      · subst he
        exact ⟨K, hk, .inl ⟨a, hb⟩⟩
      · exact (taken_set hk rfl he).mp (ht y hy)
    | write k x w png K hk hb hw =>
      have hn : (k, x) ∉ taken := by
        intro h
        obtain ⟨J, hJ, hb⟩ := ht _ h
        dsimp only at hJ
        rw [upd_same] at hJ
        injection hJ with hJ
        subst hJ
        have e : (K.setTask x (.done png)).task x = .done png := upd_same _ _ _
        dsimp only at hb
        rw [e] at hb
        rcases hb with ⟨_, hb⟩ | hb <;> cases hb
      refine quiet hi (fun y hy => (taken_set hk rfl ?_).mp (ht y hy))
      intro e
      have e : y = (k, x) := e
      exact hn (e ▸ hy)

/-- A job that has returned has no slice left, whatever else the master did meanwhile. -/
theorem returned_all {P : MState F → MLabel F → Prop} {s : MState F} (h : MReach P s) :
    ∀ i J rep, s.job i = some J → J.phase = .returned rep → ∀ z < J.n, J.task z = .dropped ∨ ∃ png, J.task z = .done png := by
  induction h with
  | init => intro i J rep hJ; cases hJ
  | @step s s' l _ hp hs ih =>
    have set : ∀ {k x : Nat} {K : JobState F} {t : Task}, s.job k = some K → s'.job = upd s.job k (some (K.setTask x t)) →
        (∀ rep, K.phase = .returned rep → x < K.n → ¬ (K.task x = .dropped ∨ ∃ png, K.task x = .done png)) →
        ∀ i J rep, s'.job i = some J → J.phase = .returned rep → ∀ z < J.n, J.task z = .dropped ∨ ∃ png, J.task z = .done png := by
      intro k x K t hk hs' hno i J rep hJ hph z hz
      rw [hs'] at hJ
      by_cases hi : i = k
      · subst hi
        rw [upd_same] at hJ
        injection hJ with hJ
        subst hJ
        by_cases hx : z = x
        · subst hx
          exact absurd (ih i K rep hk hph z hz) (hno rep hph hz)
        · have e : (K.setTask x t).task z = K.task z := upd_ne _ _ _ _ hx
          rw [e]
          exact ih i K rep hk hph z hz
      · rw [upd_ne _ _ _ _ hi] at hJ
        exact ih i J rep hJ hph z hz
    have phase : ∀ {k : Nat} {K : JobState F} {p : JobPhase}, s.job k = some K → s'.job = upd s.job k (some { K with phase := p }) →
        ((∃ rep, p = .returned rep) → ∀ z < K.n, K.task z = .dropped ∨ ∃ png, K.task z = .done png) →
        ∀ i J rep, s'.job i = some J → J.phase = .returned rep → ∀ z < J.n, J.task z = .dropped ∨ ∃ png, J.task z = .done png := by
      intro k K p hk hs' hall i J rep hJ hph z hz
      rw [hs'] at hJ
      by_cases hi : i = k
      · subst hi
        rw [upd_same] at hJ
        injection hJ with hJ
        subst hJ
        exact hall ⟨rep, hph⟩ z hz
      · rw [upd_ne _ _ _ _ hi] at hJ
        exact ih i J rep hJ hph z hz
    cases hs with
    | register a => exact ih
    | start k r hk =>
      intro i J rep hJ hph z hz
      dsimp only at hJ
      by_cases hi : i = k
      · subst hi
        rw [upd_same] at hJ
        injection hJ with hJ
        subst hJ
        cases hph
      · rw [upd_ne _ _ _ _ hi] at hJ
        exact ih i J rep hJ hph z hz
    | manifest k w K hk hph hw => exact phase hk rfl (by rintro ⟨rep, h⟩; cases h)
    | blanks k w K hk hph hw => exact phase hk rfl (by rintro ⟨rep, h⟩; cases h)
    | finish k w K hk hph hall hw => exact phase hk rfl (fun _ => hall)
    | take k x a K hk hph hx hwait ha =>
      refine set hk rfl (fun rep hr => ?_)
      rw [hph] at hr
      cases hr
    | dialErr k x a K hk hb =>
      refine set hk rfl (fun rep hr hx h => ?_)
      rw [hb] at h
      rcases h with h | ⟨_, h⟩ <;> cases h
    | sliceOk k x a png K hk hb =>
      refine set hk rfl (fun rep hr hx h => ?_)
      rw [hb] at h
      rcases h with h | ⟨_, h⟩ <;> cases h
    | sliceErr k x a K hk hb =>
      refine set hk rfl (fun rep hr hx h => ?_)
      rw [hb] at h
      rcases h with h | ⟨_, h⟩ <;> cases h
    | write k x w png K hk hb hw =>
      refine set hk rfl (fun rep hr hx h => ?_)
      rw [hb] at h
      rcases h with h | ⟨_, h⟩ <;> cases h

/-! ## A job that ends its agents -/

section
variable [GoFloat F] {lib : Lib F} {codec : Codec F} {reqs : Nat → WireRequest F}

/-- **C122.** A request that ends every agent that works on it: one of its files, possibly only a cut, lacks a corner or fails its own
    size check. -/
theorem bad_file_ends_agents {q : WireRequest F} (h : (∃ f ∈ q.StlFiles, LacksCorner f) ∨ ∃ f ∈ q.StlFiles, ∃ ts, Spells f ts ∧
      ¬ ∃ L, layout (lib.bbox ts) (boxScale (lib.bbox ts)) q.Dim q.NX q.NY q.NZ = .ok L) (z : Int) (res : Option Image)
    (hr : AgentWire lib q z res) : res = none := by
  have hr' : AgentCall lib ⟨some q, z⟩ res := hr
  rw [agent_ends_iff hr']
  change (∃ f ∈ q.StlFiles, LacksCorner f) ∨ _
  rcases h with h | ⟨f, hf, ts, hs, hL⟩
  · exact .inl h
  · cases hd : decodeAll q.StlFiles with
    | none => exact .inl (decodeAll_none.mp hd)
    | some files =>
      right
      have h2 := decodeAll_iff.mp hd
      have hmem : ts ∈ files := by
        clear hr hr' hd
        revert hf
        generalize q.StlFiles = fs at h2
        induction h2 with
        | nil => intro hf; cases hf
        | @cons f' ts' fs tss h1 _ ih =>
          intro hf
          rcases List.mem_cons.mp hf with rfl | hf
          · have e1 := decode_iff.mpr h1
            rw [decode_iff.mpr hs] at e1
            injection e1 with e1
            rw [e1]
            exact List.mem_cons_self
          · exact List.mem_cons_of_mem _ (ih hf)
      cases files with
      | nil => cases hmem
      | cons base cuts => exact ⟨base, cuts, h2, .inl ⟨ts, hmem, hL⟩⟩

/-- Every job is that of its message, and every image it has came from an agent working on that message. -/
theorem honest_wire {P : MState F → MLabel F → Prop} {s : MState F}
    (h : MReach (fun s l => P s l ∧ ServingWire lib codec reqs s l) s) :
    ∀ i J, s.job i = some J → newJobWire lib (reqs i) = .ok J.req ∧
      ∀ (z : Nat) png, (J.task z = .writing png ∨ J.task z = .done png) →
        ∃ img, AgentWire lib (reqs i) z (some img) ∧ png = codec.png img := by
  induction h with
  | init => intro i J hJ; cases hJ
  | @step s s' l _ hP hs ih =>
    intro i J' hj
    rcases step_task hs hj with ⟨_, hl, hw⟩ | ⟨J, hJ, hreq, ht⟩
    · refine ⟨hP.2.1 i _ hl, ?_⟩
      intro z png h
      rw [hw z] at h
      rcases h with h | h <;> cases h
    · obtain ⟨i1, i2⟩ := ih i J hJ
      refine ⟨hreq ▸ i1, ?_⟩
      intro z png h
      rcases ht z with e | ⟨_, e⟩ | ⟨a, _, e⟩ | ⟨p, hl, e⟩ | ⟨_, e⟩ | ⟨p, hp, e⟩
      · rw [e] at h
        exact i2 z png h
      · rw [e] at h; rcases h with h | h <;> cases h
      · rw [e] at h; rcases h with h | h <;> cases h
      · rw [e] at h
        rcases h with h | h
        · injection h with h
          subst h
          exact hP.2.2 i z p hl
        · cases h
      · rw [e] at h; rcases h with h | h <;> cases h
      · rw [e] at h
        rcases h with h | h
        · cases h
        · injection h with h
          subst h
          exact i2 z p (.inl hp)

/-- **C122.** A job whose message ends every agent that works on it (see `bad_file_ends_agents`), in any company of other jobs: if it
    returns, all of its slices were lost, each with an agent: the agents left are fewer than the registrations by its number of slices. -/
theorem bad_job_costs_agents {P : MState F → MLabel F → Prop} {ls : List (MLabel F)} {s : MState F}
    (h : History (fun s l => P s l ∧ ServingWire lib codec reqs s l) ls s) {i : Nat} {J : JobState F} (hj : s.job i = some J)
    {rep : Reply} (hp : J.phase = .returned rep) (hbad : ∀ (z : Nat) res, AgentWire lib (reqs i) z res → res = none) :
    (∀ z < J.n, J.task z = .dropped) ∧
    ∀ (idle : Finset Bytes) (busy : Finset (Nat × Nat)), (∀ a ∈ idle, s.idle a = true) →
      (∀ x ∈ busy, ∃ a, Spec.Working s a x.1 x.2) → idle.card + busy.card + J.n ≤ registrations ls := by
  have hd : ∀ z < J.n, J.task z = .dropped := by
    intro z hz
    rcases returned_all (history_reach h) i J rep hj hp z hz with h1 | ⟨png, h1⟩
    · exact h1
    · obtain ⟨img, h2, _⟩ := (honest_wire (history_reach h) i J hj).2 z png (.inr h1)
      cases hbad z _ h2
  refine ⟨hd, ?_⟩
  intro idle busy h1 h2
  let lost : Finset (Nat × Nat) := (Finset.range J.n).image fun z => (i, z)
  have hc : lost.card = J.n := by
    rw [Finset.card_image_of_injective _ (fun a b h => by injection h), Finset.card_range]
  have hdis : Disjoint busy lost := by
    rw [Finset.disjoint_left]
    intro x hx hl
    obtain ⟨z, hz, rfl⟩ := Finset.mem_image.mp hl
    obtain ⟨a, K, hK, ha⟩ := h2 _ hx
    dsimp only at hK ha
    rw [hj] at hK
    injection hK with hK
    subst hK
    rw [hd z (Finset.mem_range.mp hz)] at ha
    cases ha
  have := failed_calls_cost_agents h idle h1 (busy ∪ lost) (by
    intro x hx
    rcases Finset.mem_union.mp hx with hx | hx
    · obtain ⟨a, K, hK, ha⟩ := h2 x hx
      exact ⟨K, hK, .inl ⟨a, ha⟩⟩
    · obtain ⟨z, hz, rfl⟩ := Finset.mem_image.mp hx
      exact ⟨J, hj, .inr (hd z (Finset.mem_range.mp hz))⟩)
  rw [Finset.card_union_of_disjoint hdis, hc] at this
  omega

/-- **C122.** So with fewer registrations than slices it never returns. -/
theorem bad_job_needs_agents {P : MState F → MLabel F → Prop} {ls : List (MLabel F)} {s : MState F}
    (h : History (fun s l => P s l ∧ ServingWire lib codec reqs s l) ls s) {i : Nat} {J : JobState F} (hj : s.job i = some J)
    (hbad : ∀ (z : Nat) res, AgentWire lib (reqs i) z res → res = none) (hn : registrations ls < J.n) (rep : Reply) :
    J.phase ≠ .returned rep := by
  intro hp
  have := (bad_job_costs_agents h hj hp hbad).2 ∅ ∅ (by intro a ha; cases ha) (by intro a ha; cases ha)
  simp only [Finset.card_empty] at this
  omega

/-- **C122.** And if there were no more registrations than it has slices, then after it every other job that has a slice left is starved:
    by C66 it does not return unless an agent registers, however good its own message. -/
theorem bad_job_starves_others {P : MState F → MLabel F → Prop} {ls : List (MLabel F)} {s : MState F}
    (h : History (fun s l => P s l ∧ ServingWire lib codec reqs s l) ls s) {i : Nat} {J : JobState F} (hj : s.job i = some J)
    {rep : Reply} (hp : J.phase = .returned rep) (hbad : ∀ (z : Nat) res, AgentWire lib (reqs i) z res → res = none)
    (hn : registrations ls ≤ J.n) {k : Nat} {K : JobState F} (hk : s.job k = some K) (hr : K.phase = .running) {z : Nat}
    (hz : z < K.n) (hw : K.task z = .waiting) : Spec.Starved s k := by
  have hb := (bad_job_costs_agents h hj hp hbad).2
  refine ⟨?_, ?_, K, z, hk, hr, hz, hw⟩
  · intro a
    cases ha : s.idle a with
    | false => rfl
    | true =>
      have := hb {a} ∅ (by intro b hb; rw [Finset.mem_singleton.mp hb]; exact ha) (by intro a ha; cases ha)
      rw [Finset.card_singleton, Finset.card_empty] at this
      omega
  · intro a j x hx
    have := hb ∅ {(j, x)} (by intro a ha; cases ha) (by intro b hb; rw [Finset.mem_singleton.mp hb]; exact ⟨a, hx⟩)
    rw [Finset.card_singleton, Finset.card_empty] at this
    omega

/-- **C122.** What the client of such a job gets, if jobs do not overlap: a readable archive, without an error, with the manifest and the two black
    images and no slice. -/
theorem bad_job_reply {ls : List (MLabel F)} {s : MState F}
    (h : History (fun s l => Spec.NoOverlap s l ∧ ServingWire lib codec reqs s l) ls s) {i : Nat} {J : JobState F} (hj : s.job i = some J)
    {rep : Reply} (hp : J.phase = .returned rep) (hbad : ∀ (z : Nat) res, AgentWire lib (reqs i) z res → res = none) :
    rep = .svx (some [manifestEntry i, blankEntry i J.req 0, blankEntry i J.req (J.req.L.dimZ + 1)]) := by
  have hd := (bad_job_costs_agents h hj hp hbad).1
  obtain ⟨_, es, h1, h2⟩ := job_reply_exact s (reach_mono (fun _ _ h => h.1) (history_reach h)) i J hj rep hp
  have he : doneSlices i J = [] := by
    unfold doneSlices
    rw [List.filterMap_eq_nil_iff]
    intro z hz
    rw [hd z (List.mem_range.mp hz)]
  rw [he] at h2
  rw [h1, List.perm_nil.mp h2, List.append_nil]
  rfl

end

/-! ## Instances -/

theorem execAll_history {P : MState F → MLabel F → Prop} (ls : List (MLabel F)) :
    ∀ (s s' : MState F) (ls0 : List (MLabel F)), History P ls0 s → execAll s ls = some s' → (∀ t, ∀ l ∈ ls, P t l) →
      History P (ls0 ++ ls) s' := by
  induction ls with
  | nil =>
    intro s s' ls0 h he _
    simp only [execAll, Option.some.injEq] at he
    subst he
    rwa [List.append_nil]
  | cons l ls ih =>
    intro s s' ls0 h he hP
    simp only [execAll] at he
    cases hx : exec s l with
    | none => rw [hx] at he; cases he
    | some t =>
      rw [hx] at he
      have := ih t s' (ls0 ++ [l]) (.step h (hP s l List.mem_cons_self) (exec_sound s t l hx)) he
        (fun t' l' hl' => hP t' l' (List.mem_cons_of_mem _ hl'))
      rwa [List.append_assoc] at this

/-- A message with a good first file and a cut of one triangle whose second corner is absent. -/
def exBad : WireRequest ℚ :=
  { (exRequest (ascii "out")).wire with
    StlFiles := [exPyramid.map fun t => ⟨some t.V1, some t.V2, some t.V3⟩, [⟨some ⟨0, 0, 0⟩, none, some ⟨2, 0, 2⟩⟩]] }

theorem exBad_accepted : newJobWire exLib exBad = .ok exReq := by
  rw [master_accepts_iff]
  refine ⟨_, exPyramid, _, rfl, List.cons_ne_nil _ _, rfl, ?_, rfl⟩
  show layout (⟨⟨0, 0, 0⟩, ⟨2, 2, 2⟩⟩ : Box ℚ) (boxScale (⟨⟨0, 0, 0⟩, ⟨2, 2, 2⟩⟩ : Box ℚ)) 2 1 1 1 = .ok exReq.L
  decide +kernel

theorem exBad_ends (z : Int) (res : Option Image) (h : AgentWire exLib exBad z res) : res = none :=
  bad_file_ends_agents (.inl ⟨_, List.mem_cons_of_mem _ List.mem_cons_self, _, List.mem_cons_self, .inr (.inl rfl)⟩) z res h

theorem exGood_accepted : newJobWire exLib (exRequest (ascii "out")).wire = .ok exReq := by
  rw [master_accepts_iff]
  refine ⟨_, exPyramid, _, rfl, List.cons_ne_nil _ _, rfl, ?_, rfl⟩
  show layout (⟨⟨0, 0, 0⟩, ⟨2, 2, 2⟩⟩ : Box ℚ) (boxScale (⟨⟨0, 0, 0⟩, ⟨2, 2, 2⟩⟩ : Box ℚ)) 2 1 1 1 = .ok exReq.L
  decide +kernel

/-- The first job has the bad message, the others a good one. -/
def exReqs (i : Nat) : WireRequest ℚ := if i = 0 then exBad else (exRequest (ascii "out")).wire

/-- **C122.** Two agents register; a job with the bad message loses both and returns, and the next job, whose message is good, is starved. -/
theorem bad_job_takes_service (codec : Codec ℚ) : ∃ (ls : List (MLabel ℚ)) (s : MState ℚ) (J : JobState ℚ),
    History (fun s l => True ∧ ServingWire exLib codec exReqs s l) ls s ∧ registrations ls = 2 ∧ s.job 0 = some J ∧
    (∃ rep, J.phase = .returned rep) ∧ (∀ (z : Nat) res, AgentWire exLib (exReqs 0) z res → res = none) ∧ Spec.Starved s 1 := by
  let ls : List (MLabel ℚ) := [.register [65], .register [66], .start 0 exReq, .manifest 0, .blanks 0, .take 0 0 [65], .take 0 1 [66],
    .sliceErr 0 0, .sliceErr 0 1, .finish 0, .start 1 exReq, .manifest 1, .blanks 1]
  obtain ⟨s, h1, h2⟩ := execAll_some ls (fun s => ((s.job 0).map (fun J => (J.n, match J.phase with | .returned _ => true | _ => false)),
    (s.job 1).map (fun J => (J.n, J.phase, J.task 0)))) (some (2, true), some (2, .running, .waiting)) (by decide +kernel)
  have hh := execAll_history (P := fun s l => True ∧ ServingWire exLib codec exReqs s l) ls _ s [] .init h1 (by
    intro t l hl
    refine ⟨trivial, ?_, ?_⟩
    · rintro i r rfl
      simp only [ls, List.mem_cons, List.not_mem_nil, or_false, MLabel.start.injEq, reduceCtorEq, false_or] at hl
      rcases hl with ⟨rfl, rfl⟩ | ⟨rfl, rfl⟩
      · exact exBad_accepted
      · exact exGood_accepted
    · rintro i z png rfl
      simp only [ls, List.mem_cons, List.not_mem_nil, or_false, reduceCtorEq] at hl)
  rw [List.nil_append] at hh
  have hbad : ∀ (z : Nat) res, AgentWire exLib (exReqs 0) z res → res = none := fun z res h => exBad_ends z res h
  injection h2 with h2 h3
  obtain ⟨J, hJ, h2⟩ := Option.map_eq_some_iff.mp h2
  obtain ⟨K, hK, h3⟩ := Option.map_eq_some_iff.mp h3
  injection h2 with h4 h5
  injection h3 with h6 h7
  injection h7 with h7 h8
  obtain ⟨rep, hp⟩ : ∃ rep, J.phase = .returned rep := by
    split at h5
    · rename_i r hr
      exact ⟨r, hr⟩
    · cases h5
  refine ⟨ls, s, J, hh, rfl, hJ, ⟨rep, hp⟩, hbad, ?_⟩
  exact bad_job_starves_others hh hJ hp hbad (by rw [h4]; exact Nat.le_refl 2) hK h7 (z := 0) (by rw [h6]; decide) h8

/-- The job of the bad message alone, and its reply. -/
example (codec : Codec ℚ) : ∃ (ls : List (MLabel ℚ)) (s : MState ℚ) (J : JobState ℚ),
    History (fun s l => Spec.NoOverlap s l ∧ ServingWire exLib codec exReqs s l) ls s ∧ s.job 0 = some J ∧ J.n = 2 ∧
    J.phase = .returned (.svx (some [manifestEntry 0, blankEntry 0 J.req 0, blankEntry 0 J.req (J.req.L.dimZ + 1)])) := by
  have hstart : ServingWire exLib codec exReqs MState.init (.start 0 exReq) := by
    refine ⟨?_, ?_⟩
    · intro i r h
      injection h with h1 h2
      subst h1 h2
      exact exBad_accepted
    · intro i z png h; cases h
  have h0 : History (fun s l => Spec.NoOverlap s l ∧ ServingWire exLib codec exReqs s l) [.start 0 exReq] _ :=
    .step .init ⟨fun i r _ j J hJ => (by cases hJ), hstart⟩ (.start MState.init 0 exReq rfl)
  let ls : List (MLabel ℚ) := [.register [65], .register [66], .manifest 0, .blanks 0, .take 0 0 [65], .take 0 1 [66],
    .sliceErr 0 0, .sliceErr 0 1, .finish 0]
  obtain ⟨s, h1, h2⟩ := execAll_some (.start 0 exReq :: ls)
    (fun s => (s.job 0).map (fun J => (J.n, match J.phase with | .returned _ => true | _ => false))) (some (2, true)) (by decide +kernel)
  have hh := execAll_history (P := fun s l => Spec.NoOverlap s l ∧ ServingWire exLib codec exReqs s l) ls _ s _ h0 h1 (by
    intro t l hl
    refine ⟨?_, ?_, ?_⟩
    · rintro i r rfl
      simp only [ls, List.mem_cons, List.not_mem_nil, or_false, reduceCtorEq] at hl
    · rintro i r rfl
      simp only [ls, List.mem_cons, List.not_mem_nil, or_false, reduceCtorEq] at hl
    · rintro i z png rfl
      simp only [ls, List.mem_cons, List.not_mem_nil, or_false, reduceCtorEq] at hl)
  obtain ⟨J, hJ, h2⟩ := Option.map_eq_some_iff.mp h2
  injection h2 with h4 h5
  obtain ⟨rep, hp⟩ : ∃ rep, J.phase = .returned rep := by
    split at h5
    · rename_i r hr
      exact ⟨r, hr⟩
    · cases h5
  have := bad_job_reply hh hJ hp (fun z res h => exBad_ends z res h)
  exact ⟨_, s, J, hh, hJ, h4, by rw [hp, this]⟩

/-- One agent for a bad job of two slices. -/
example (codec : Codec ℚ) : ∃ (ls : List (MLabel ℚ)) (s : MState ℚ) (J : JobState ℚ),
    History (fun s l => True ∧ ServingWire exLib codec exReqs s l) ls s ∧ s.job 0 = some J ∧ registrations ls < J.n := by
  let ls : List (MLabel ℚ) := [.register [65], .start 0 exReq, .manifest 0, .blanks 0, .take 0 0 [65], .sliceErr 0 0]
  obtain ⟨s, h1, h2⟩ := execAll_some ls (fun s => (s.job 0).map (fun J => J.n)) (some 2) (by decide +kernel)
  have hh := execAll_history (P := fun s l => True ∧ ServingWire exLib codec exReqs s l) ls _ s [] .init h1 (by
    intro t l hl
    refine ⟨trivial, ?_, ?_⟩
    · rintro i r rfl
      simp only [ls, List.mem_cons, List.not_mem_nil, or_false, MLabel.start.injEq, reduceCtorEq, false_or] at hl
      obtain ⟨rfl, rfl⟩ := hl
      exact exBad_accepted
    · rintro i z png rfl
      simp only [ls, List.mem_cons, List.not_mem_nil, or_false, reduceCtorEq] at hl)
  rw [List.nil_append] at hh
  obtain ⟨J, hJ, h2⟩ := Option.map_eq_some_iff.mp h2
  exact ⟨ls, s, J, hh, hJ, by rw [h2]; decide⟩

/-- A message that ends the master. -/
example : newJobWire exLib { exBad with StlFiles := exBad.StlFiles.reverse } = .panic :=
  master_ends_iff.mpr ⟨_, _, rfl, List.cons_ne_nil _ _, .inl ⟨_, List.mem_cons_self, .inr (.inl rfl)⟩⟩

/-- The empty message ends no agent. -/
example (res : Option Image) (h : AgentCall exLib ⟨none, 0⟩ res) : res ≠ none := by
  rw [Ne, agent_ends_iff h]
  rintro (⟨f, hf, _⟩ | ⟨base, cuts, hf, _⟩)
  · cases hf
  · cases hf

end Net
end StlDice
