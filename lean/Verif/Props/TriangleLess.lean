import Verif.Model.Manifold
import Verif.Props.ManifoldCases
import Mathlib.Data.List.Sort

/-! # TriangleLess is a strict weak order (C52) -/

namespace StlDice
namespace Spec

/-- A comparison `sort.Slice` accepts, on the values satisfying `ok`: irreflexive, transitive, and
    incomparability is transitive. -/
structure StrictWeak {α : Type} (ok : α → Prop) (less : α → α → Bool) : Prop where
  irrefl : ∀ a, ok a → less a a = false
  trans : ∀ a b c, ok a → ok b → ok c → less a b = true → less b c = true → less a c = true
  incomp : ∀ a b c, ok a → ok b → ok c → (less a b = false ∧ less b a = false) →
    (less b c = false ∧ less c b = false) → (less a c = false ∧ less c a = false)

/-- The nine coordinates of a triangle in the order of significance: corner by corner, Z before Y
    before X. -/
def sortKey {F : Type} (t : Tri (BinVOX.Vec F)) : List F :=
  [t.V1.Z, t.V1.Y, t.V1.X, t.V2.Z, t.V2.Y, t.V2.X, t.V3.Z, t.V3.Y, t.V3.X]

/-- What `sort.Slice(ts, less)` may deliver: a rearrangement in which no element is less than an
    earlier one. -/
def SortedBy {α : Type} (less : α → α → Bool) (ts out : List α) : Prop :=
  out.Perm ts ∧ out.Pairwise fun a b => less b a = false

end Spec

namespace Manifold
open Spec GoFloat BinVOX

theorem lessChain_cons {F : Type} [GoFloat F] (a b : F) (r : List (F × F)) :
    lessChain ((a, b) :: r) = (lt a b || (!lt b a && lessChain r)) := by
  cases r with
  | nil => simp [lessChain]
  | cons x r =>
    show (if lt a b then true else if lt b a then false else lessChain (x :: r)) = _
    cases lt a b <;> cases lt b a <;> simp

section
variable {F : Type} [GoFloat F] {ok : F → Prop} (h : StrictWeak ok (lt : F → F → Bool))
include h

theorem lt_asymm {a b : F} (ha : ok a) (hb : ok b) (h1 : lt a b = true) : lt b a = false := by
  by_contra h2
  have := h.trans a b a ha hb ha h1 (by simpa using h2)
  rw [h.irrefl a ha] at this
  cases this

theorem lt_neg {a b c : F} (ha : ok a) (hb : ok b) (hc : ok c) (h1 : lt a c = true) :
    lt a b = true ∨ lt b c = true := by
  by_contra hn
  push Not at hn
  obtain ⟨n1, n2⟩ := hn
  have n1 : lt a b = false := by simpa using n1
  have n2 : lt b c = false := by simpa using n2
  by_cases n3 : lt b a = true
  · exact absurd (h.trans b a c hb ha hc n3 h1) (by rw [n2]; decide)
  · by_cases n4 : lt c b = true
    · exact absurd (h.trans a c b ha hc hb h1 n4) (by rw [n1]; decide)
    · have := h.incomp a b c ha hb hc ⟨n1, by simpa using n3⟩ ⟨n2, by simpa using n4⟩
      rw [h1] at this
      exact absurd this.1 (by decide)

theorem chain_asymm : ∀ (as bs : List F), (∀ x ∈ as, ok x) → (∀ x ∈ bs, ok x) →
    lessChain (as.zip bs) = true → lessChain (bs.zip as) = false
  | [], _, _, _ => by simp [lessChain]
  | _ :: _, [], _, _ => by simp [lessChain]
  | a :: as, b :: bs, ha, hb => by
    have oa := ha a List.mem_cons_self
    have ob := hb b List.mem_cons_self
    have ih := chain_asymm as bs (fun x hx => ha x (List.mem_cons_of_mem _ hx))
      (fun x hx => hb x (List.mem_cons_of_mem _ hx))
    have s1 := fun h1 => lt_asymm h oa ob h1
    have s2 := fun h1 => lt_asymm h ob oa h1
    rw [List.zip_cons_cons, List.zip_cons_cons, lessChain_cons, lessChain_cons]
    generalize lessChain (as.zip bs) = p at *
    generalize lessChain (bs.zip as) = q at *
    generalize lt a b = x at *
    generalize lt b a = y at *
    cases x <;> cases y <;> cases p <;> cases q <;> simp_all

theorem chain_neg : ∀ (as bs cs : List F), as.length = bs.length → bs.length = cs.length →
    (∀ x ∈ as, ok x) → (∀ x ∈ bs, ok x) → (∀ x ∈ cs, ok x) →
    lessChain (as.zip cs) = true → lessChain (as.zip bs) = true ∨ lessChain (bs.zip cs) = true
  | [], _, _, _, _, _, _, _ => by simp [lessChain]
  | _ :: _, [], _, hl, _, _, _, _ => by simp at hl
  | _ :: _, _ :: _, [], _, hl, _, _, _ => by simp at hl
  | a :: as, b :: bs, c :: cs, l1, l2, ha, hb, hc => by
    have oa := ha a List.mem_cons_self
    have ob := hb b List.mem_cons_self
    have oc := hc c List.mem_cons_self
    have ih := chain_neg as bs cs (by simpa using l1) (by simpa using l2)
      (fun x hx => ha x (List.mem_cons_of_mem _ hx)) (fun x hx => hb x (List.mem_cons_of_mem _ hx))
      (fun x hx => hc x (List.mem_cons_of_mem _ hx))
    have t1 : lt a c = true → lt a b = true ∨ lt b c = true := lt_neg h oa ob oc
    have t2 : lt b a = true → lt b c = true ∨ lt c a = true := lt_neg h ob oc oa
    have t3 : lt c b = true → lt c a = true ∨ lt a b = true := lt_neg h oc oa ob
    rw [List.zip_cons_cons, List.zip_cons_cons, List.zip_cons_cons, lessChain_cons, lessChain_cons,
      lessChain_cons]
    generalize lessChain (as.zip bs) = p at *
    generalize lessChain (bs.zip cs) = q at *
    generalize lessChain (as.zip cs) = r at *
    generalize lt a b = x1 at *
    generalize lt b a = x2 at *
    generalize lt b c = y1 at *
    generalize lt c b = y2 at *
    generalize lt a c = z1 at *
    generalize lt c a = z2 at *
    clear h l1 l2 ha hb hc
    revert p q r x1 x2 y1 y2 z1 z2
    decide

/-- **C52.** `TriangleLess` is irreflexive, transitive, and its incomparability is transitive, on all
    triangles whose coordinates are taken from a set on which `<` has these properties (for
    `float64`: the numbers other than NaN). -/
theorem triangleLess_strictWeak :
    StrictWeak (fun t : Tri (Vec F) => ∀ x ∈ sortKey t, ok x) triangleLess := by
  have hz : ∀ s t : Tri (Vec F), triangleLess s t = lessChain ((sortKey s).zip (sortKey t)) :=
    fun s t => rfl
  have as : ∀ s t : Tri (Vec F), (∀ x ∈ sortKey s, ok x) → (∀ x ∈ sortKey t, ok x) →
      triangleLess s t = true → triangleLess t s = false := by
    intro s t hs ht
    rw [hz, hz]
    exact chain_asymm h _ _ hs ht
  have ng : ∀ s t u : Tri (Vec F), (∀ x ∈ sortKey s, ok x) → (∀ x ∈ sortKey t, ok x) →
      (∀ x ∈ sortKey u, ok x) → triangleLess s u = true → triangleLess s t = true ∨ triangleLess t u = true := by
    intro s t u hs ht hu
    rw [hz, hz, hz]
    exact chain_neg h _ _ _ rfl rfl hs ht hu
  refine ⟨?_, ?_, ?_⟩
  · intro a ha
    by_contra hc
    have hc : triangleLess a a = true := by simpa using hc
    exact absurd (as a a ha ha hc) (by rw [hc]; decide)
  · intro a b c ha hb hc h1 h2
    rcases ng a c b ha hc hb h1 with h3 | h3
    · exact h3
    · rw [as b c hb hc h2] at h3
      cases h3
  · intro a b c ha hb hc h1 h2
    constructor
    · by_contra hn
      rcases ng a b c ha hb hc (by simpa using hn) with h3 | h3
      · rw [h1.1] at h3; cases h3
      · rw [h2.1] at h3; cases h3
    · by_contra hn
      rcases ng c b a hc hb ha (by simpa using hn) with h3 | h3
      · rw [h2.2] at h3; cases h3
      · rw [h1.2] at h3; cases h3

end

/-- The comparison of exact numbers is strict weak, for all of them. -/
theorem rat_strictWeak : StrictWeak (fun _ : ℚ => True) (lt : ℚ → ℚ → Bool) := by
  have e : ∀ a b : ℚ, (lt a b : Bool) = decide (a < b) := fun _ _ => rfl
  refine ⟨?_, ?_, ?_⟩
  · intro a _; simp [e]
  · intro a b c _ _ _; simp only [e, decide_eq_true_eq]; exact lt_trans
  · intro a b c _ _ _; simp only [e, decide_eq_false_iff_not, not_lt]
    rintro ⟨h1, h2⟩ ⟨h3, h4⟩
    exact ⟨h3.trans h1, h2.trans h4⟩

/-- On exact numbers `TriangleLess` is the lexicographic order of the nine coordinates. -/
theorem triangleLess_lex (s t : Tri (Vec ℚ)) : triangleLess s t = true ↔ sortKey s < sortKey t := by
  have hz : triangleLess s t = lessChain ((sortKey s).zip (sortKey t)) := rfl
  have key : ∀ as bs : List ℚ, as.length = bs.length → (lessChain (as.zip bs) = true ↔ as < bs) := by
    intro as
    induction as with
    | nil =>
      intro bs hl
      cases bs with
      | nil => simp [lessChain]
      | cons b bs => simp at hl
    | cons a as ih =>
      intro bs hl
      cases bs with
      | nil => simp at hl
      | cons b bs =>
        have ih := ih bs (by simpa using hl)
        rw [List.zip_cons_cons, lessChain_cons, List.cons_lt_cons_iff, ← ih]
        show (decide (a < b) || (!decide (b < a) && _)) = true ↔ _
        simp only [Bool.or_eq_true, Bool.and_eq_true, decide_eq_true_eq, Bool.not_eq_true',
          decide_eq_false_iff_not, not_lt]
        constructor
        · rintro (h | ⟨h1, h2⟩)
          · exact Or.inl h
          · rcases h1.lt_or_eq with h | h
            · exact Or.inl h
            · exact Or.inr ⟨h, h2⟩
        · rintro (h | ⟨h1, h2⟩)
          · exact Or.inl h
          · exact Or.inr ⟨h1.le, h2⟩
  rw [hz]
  exact key _ _ rfl

theorem sortKey_inj {s t : Tri (Vec ℚ)} (h : sortKey s = sortKey t) : s = t := by
  obtain ⟨⟨a1, a2, a3⟩, ⟨b1, b2, b3⟩, ⟨c1, c2, c3⟩⟩ := s
  obtain ⟨⟨d1, d2, d3⟩, ⟨e1, e2, e3⟩, ⟨f1, f2, f3⟩⟩ := t
  unfold sortKey at h
  simp only [List.cons.injEq, and_true] at h
  obtain ⟨rfl, rfl, rfl, rfl, rfl, rfl, rfl, rfl, rfl⟩ := h
  rfl

/-- Triangles that differ in a position are ordered one way or the other. -/
theorem triangleLess_total {s t : Tri (Vec ℚ)} (h1 : triangleLess s t = false)
    (h2 : triangleLess t s = false) : s = t := by
  apply sortKey_inj
  have n1 : ¬ sortKey s < sortKey t := fun h => by
    rw [(triangleLess_lex s t).mpr h] at h1; cases h1
  have n2 : ¬ sortKey t < sortKey s := fun h => by
    rw [(triangleLess_lex t s).mpr h] at h2; cases h2
  exact le_antisymm (not_lt.mp n2) (not_lt.mp n1)

/-- Two sorted rearrangements of the same triangles are the same list. -/
theorem sorted_unique {ts1 ts2 o1 o2 : List (Tri (Vec ℚ))} (hp : ts1.Perm ts2)
    (h1 : SortedBy triangleLess ts1 o1) (h2 : SortedBy triangleLess ts2 o2) : o1 = o2 := by
  apply List.Perm.eq_of_pairwise _ h1.2 h2.2 ((h1.1.trans hp).trans h2.1.symm)
  intro a b _ _ hab hba
  exact triangleLess_total hba hab

/-- **C52.** In exact arithmetic, whatever the order in which the maps are visited and whatever sorting
    algorithm is used, the mesh of a model sorted with `TriangleLess` is one and the same list. -/
theorem manifold_sorted_deterministic {b : BinVOX ℚ} {t1 t2 o1 o2 : List (Tri (Vec ℚ))}
    (h1 : ManifoldRun b t1) (h2 : ManifoldRun b t2)
    (s1 : SortedBy triangleLess t1 o1) (s2 : SortedBy triangleLess t2 o2) : o1 = o2 :=
  sorted_unique (manifold_runs_perm h1 h2) s1 s2

/-- Such an order exists for every list. -/
theorem sorted_exists (ts : List (Tri (Vec ℚ))) : ∃ out, SortedBy triangleLess ts out := by
  refine ⟨ts.mergeSort (fun a b => !triangleLess b a), List.mergeSort_perm _ _, ?_⟩
  have := List.pairwise_mergeSort (le := fun a b : Tri (Vec ℚ) => !triangleLess b a)
    (by
      intro a b c hab hbc
      have ab : ¬ sortKey b < sortKey a := fun h => by
        rw [(triangleLess_lex b a).mpr h] at hab; cases hab
      have bc : ¬ sortKey c < sortKey b := fun h => by
        rw [(triangleLess_lex c b).mpr h] at hbc; cases hbc
      cases hx : triangleLess c a
      · rfl
      · have := (triangleLess_lex c a).mp hx
        exact absurd this (not_lt.mpr ((not_lt.mp ab).trans (not_lt.mp bc))))
    (by
      intro a b
      cases hx : triangleLess b a
      · rfl
      · cases hy : triangleLess a b
        · rfl
        · exact absurd ((triangleLess_lex a b).mp hy) (not_lt.mpr ((triangleLess_lex b a).mp hx).le))
    ts
  exact this.imp (by intro a b h; simpa using h)

/-- The hypotheses are met: the mesh of a five-voxel model, sorted. -/
example : ∃ t o, ManifoldRun (modelOf goodVox) t ∧ SortedBy triangleLess t o ∧ t ≠ [] := by
  obtain ⟨o, ho⟩ := sorted_exists (canonical (modelOf goodVox))
  exact ⟨_, o, canonical_run _, ho, by decide +kernel⟩

/-- A comparison that answers false for NaN is no strict weak order on all values: with 1 < 2 and a
    NaN that compares with nothing, incomparability is not transitive. -/
example : ¬ StrictWeak (fun _ : Option ℚ => True)
    (fun a b => match a, b with | some x, some y => decide (x < y) | _, _ => false) := by
  intro h
  have := h.incomp (some 1) none (some 2) trivial trivial trivial ⟨rfl, rfl⟩ ⟨rfl, rfl⟩
  exact absurd this.1 (by decide +kernel)

/-- Exact numbers are ordered strictly by `<`, so triangles are by `triangleLess`. -/
example : StrictWeak (fun t : Tri (Vec ℚ) => ∀ x ∈ sortKey t, True) triangleLess :=
  triangleLess_strictWeak (ok := fun _ => True) {
    irrefl := fun a _ => by show decide (a < a) = false; simp
    trans := fun a b c _ _ _ h1 h2 => by
      have h1 : a < b := of_decide_eq_true h1
      have h2 : b < c := of_decide_eq_true h2
      exact decide_eq_true (h1.trans h2)
    incomp := fun a b c _ _ _ h1 h2 => by
      have e1 : a = b := le_antisymm (not_lt.mp (of_decide_eq_false h1.2)) (not_lt.mp (of_decide_eq_false h1.1))
      have e2 : b = c := le_antisymm (not_lt.mp (of_decide_eq_false h2.2)) (not_lt.mp (of_decide_eq_false h2.1))
      subst e1 e2
      exact h1 }

/-- Two triangles that differ in their last corner only: one comes before the other. -/
example : triangleLess (⟨⟨0, 0, 0⟩, ⟨1, 0, 0⟩, ⟨0, 1, 0⟩⟩ : Tri (Vec ℚ)) ⟨⟨0, 0, 0⟩, ⟨1, 0, 0⟩, ⟨0, 1, 1⟩⟩ = true ∨
    triangleLess (⟨⟨0, 0, 0⟩, ⟨1, 0, 0⟩, ⟨0, 1, 1⟩⟩ : Tri (Vec ℚ)) ⟨⟨0, 0, 0⟩, ⟨1, 0, 0⟩, ⟨0, 1, 0⟩⟩ = true := by
  by_contra h
  push Not at h
  have := triangleLess_total (Bool.eq_false_iff.mpr h.1) (Bool.eq_false_iff.mpr h.2)
  exact absurd this (by decide +kernel)

/-- The mesh of the five-voxel model and the same list backwards, sorted. -/
example : ∃ o1 o2, SortedBy triangleLess (canonical (modelOf goodVox)) o1 ∧ SortedBy triangleLess (canonical (modelOf goodVox)).reverse o2 ∧ o1 = o2 := by
  obtain ⟨o1, h1⟩ := sorted_exists (canonical (modelOf goodVox))
  obtain ⟨o2, h2⟩ := sorted_exists (canonical (modelOf goodVox)).reverse
  exact ⟨o1, o2, h1, h2, sorted_unique (List.reverse_perm _).symm h1 h2⟩

example : ∃ o, SortedBy triangleLess (canonical (modelOf goodVox)) o ∧
    ∀ t o', ManifoldRun (modelOf goodVox) t → SortedBy triangleLess t o' → o' = o := by
  obtain ⟨o, h⟩ := sorted_exists (canonical (modelOf goodVox))
  exact ⟨o, h, fun t o' ht ho => manifold_sorted_deterministic ht (canonical_run _) ho h⟩

end Manifold
end StlDice
