import Verif.Spec.Shell
import Verif.Lemmas.GoMap
import Mathlib.Tactic.IntervalCases

/-! Lemmas on neighbour bit maps. -/

namespace StlDice
open Spec

/-- The offset of bit `j`. -/
def off (j : Nat) : Int × Int × Int :=
  ((j / 9 : Nat) - 1, (j / 3 % 3 : Nat) - 1, (j % 3 : Nat) - 1)

theorem offsets27_eq : offsets27 = (List.range 27).map off := by decide

theorem off_isOffset {j : Nat} (h : j < 27) (h13 : j ≠ 13) :
    IsOffset (off j).1 (off j).2.1 (off j).2.2 ∧
      (j : Int) = 9 * ((off j).1 + 1) + 3 * ((off j).2.1 + 1) + ((off j).2.2 + 1) := by
  unfold IsOffset off
  dsimp only
  refine ⟨⟨⟨?_, ?_⟩, ⟨?_, ?_⟩, ⟨?_, ?_⟩, ?_⟩, ?_⟩ <;> omega

theorem off_of_isOffset {x y z : Int} (h : IsOffset x y z) {j : Nat}
    (hj : (j : Int) = 9 * (x + 1) + 3 * (y + 1) + (z + 1)) :
    j < 27 ∧ j ≠ 13 ∧ off j = (x, y, z) := by
  obtain ⟨⟨h1, h2⟩, ⟨h3, h4⟩, ⟨h5, h6⟩, h7⟩ := h
  have hj27 : j < 27 := by omega
  have e1 : (j / 9 : Nat) = (x + 1).toNat := by omega
  have e2 : (j / 3 % 3 : Nat) = (y + 1).toNat := by omega
  have e3 : (j % 3 : Nat) = (z + 1).toNat := by omega
  refine ⟨hj27, ?_, ?_⟩
  · rintro rfl; apply h7; omega
  · unfold off; rw [e1, e2, e3]
    simp only [Prod.mk.injEq]; omega

theorem exists_idx {x y z : Int} (h : IsOffset x y z) :
    ∃ j : Nat, (j : Int) = 9 * (x + 1) + 3 * (y + 1) + (z + 1) := by
  obtain ⟨⟨h1, h2⟩, ⟨h3, h4⟩, ⟨h5, h6⟩, h7⟩ := h
  exact ⟨(9 * (x + 1) + 3 * (y + 1) + (z + 1)).toNat, by omega⟩

/-- The neighbour of `k` at bit `j`. -/
def nbr (k : Key) (j : Nat) : Key := k.shift (off j).1 (off j).2.1 (off j).2.2

theorem nbrSpec_iff (S : Key → Prop) (k : Key) (N : NeighborBitMap) :
    NbrSpec S k N ↔ ∀ j : Nat, N.getLsbD j = true ↔ j < 27 ∧ j ≠ 13 ∧ S (nbr k j) := by
  unfold NbrSpec
  apply forall_congr'
  intro j
  have : (∃ x y z : Int, IsOffset x y z ∧ (j : Int) = 9 * (x + 1) + 3 * (y + 1) + (z + 1) ∧
      S (k.shift x y z)) ↔ (j < 27 ∧ j ≠ 13 ∧ S (nbr k j)) := by
    constructor
    · rintro ⟨x, y, z, h1, h2, h3⟩
      obtain ⟨a, b, c⟩ := off_of_isOffset h1 h2
      refine ⟨a, b, ?_⟩
      unfold nbr; rw [c]; exact h3
    · rintro ⟨a, b, c⟩
      obtain ⟨h1, h2⟩ := off_isOffset a b
      exact ⟨_, _, _, h1, h2, c⟩
  rw [this]

theorem exposed_iff (S : Key → Prop) (k : Key) :
    Exposed S k ↔ ∃ j : Nat, j < 27 ∧ j ≠ 13 ∧ ¬ S (nbr k j) := by
  unfold Exposed
  constructor
  · rintro ⟨x, y, z, h1, h3⟩
    obtain ⟨j, hj⟩ := exists_idx h1
    obtain ⟨a, b, c⟩ := off_of_isOffset h1 hj
    refine ⟨j, a, b, ?_⟩
    unfold nbr; rw [c]; exact h3
  · rintro ⟨j, a, b, c⟩
    exact ⟨_, _, _, (off_isOffset a b).1, c⟩

theorem mask_bit : ∀ n < 27, ∀ j < 32, (1#32 <<< n).getLsbD j = decide (j = n) := by decide +kernel
theorem mask_center : ∀ n < 27, (1#32 <<< n = x0y0z0 ↔ n = 13) := by decide +kernel
theorem mask_next : ∀ n < 27, ((1#32 <<< n : BitVec 32) <<< 1 : BitVec 32) = 1#32 <<< (n + 1) := by decide +kernel
theorem all_bit : ∀ j < 32, allNeighbors.getLsbD j = (decide (j < 27) && decide (j ≠ 13)) := by
  decide +kernel

theorem mask_bit' {n : Nat} (h : n < 27) (j : Nat) :
    (1#32 <<< n).getLsbD j = decide (j = n) := by
  by_cases hj : j < 32
  · exact mask_bit n h j hj
  · rw [BitVec.getLsbD_of_ge _ _ (by omega)]
    simp; omega

theorem all_bit' (j : Nat) : allNeighbors.getLsbD j = (decide (j < 27) && decide (j ≠ 13)) := by
  by_cases hj : j < 32
  · exact all_bit j hj
  · rw [BitVec.getLsbD_of_ge _ _ (by omega)]
    have : ¬ j < 27 := by omega
    simp [this]

/-- The state of the triple loop after `n` offsets. -/
theorem fn_fold {V : Type} (m : GoMap Key Unit) (old : GoMap Key V) (k : Key) (n : Nat) (hn : n ≤ 27) :
    let s := ((List.range n).map off).foldl (fnStep m old k) ⟨X_1Y_1Z_1, 0, []⟩
    s.mask = 1#32 <<< n ∧
    (∀ j, s.result.getLsbD j = true ↔ j < n ∧ j ≠ 13 ∧
      (m.has (nbr k j) = true ∨ old.has (nbr k j) = true)) ∧
    (∀ t, t ∈ s.toCheck ↔ ∃ j, j < n ∧ j ≠ 13 ∧ t = nbr k j ∧ m.has t = false ∧ old.has t = true) := by
  induction n with
  | zero => simp [X_1Y_1Z_1]
  | succ n ih =>
    obtain ⟨h1, h2, h3⟩ := ih (by omega)
    rw [List.range_succ, List.map_append, List.foldl_append]
    generalize ((List.range n).map off).foldl (fnStep m old k) ⟨X_1Y_1Z_1, 0, []⟩ = s at h1 h2 h3
    have hn27 : n < 27 := by omega
    simp only [List.map_cons, List.map_nil, List.foldl_cons, List.foldl_nil]
    have hk : (⟨k.X + (off n).1, k.Y + (off n).2.1, k.Z + (off n).2.2⟩ : Key) = nbr k n := rfl
    unfold fnStep
    rw [h1, hk]
    by_cases hc : n = 13
    · have hm : ¬ (1#32 <<< n ≠ x0y0z0) := not_not.mpr ((mask_center n hn27).mpr hc)
      simp only [hm, if_false, h1]
      refine ⟨mask_next n hn27, ?_, ?_⟩
      · intro j; rw [h2]
        constructor
        · rintro ⟨a, b⟩; exact ⟨by omega, b⟩
        · rintro ⟨a, b, c⟩; exact ⟨by omega, b, c⟩
      · intro t; rw [h3]
        constructor
        · rintro ⟨j, a, b⟩; exact ⟨j, by omega, b⟩
        · rintro ⟨j, a, b, c⟩; exact ⟨j, by omega, b, c⟩
    · have hm : 1#32 <<< n ≠ x0y0z0 := fun h => hc ((mask_center n hn27).mp h)
      simp only [ne_eq, hm, not_false_eq_true, if_true]
      have hres : ∀ j, (s.result ||| 1#32 <<< n).getLsbD j = true ↔
          (s.result.getLsbD j = true ∨ j = n) := by
        intro j
        rw [BitVec.getLsbD_or, mask_bit' hn27]; simp
      by_cases hm1 : m.has (nbr k n) = true
      · simp only [hm1, if_true]
        refine ⟨mask_next n hn27, ?_, ?_⟩
        · intro j; rw [hres, h2]
          constructor
          · rintro (⟨a, b⟩ | rfl)
            · exact ⟨by omega, b⟩
            · exact ⟨by omega, hc, Or.inl hm1⟩
          · rintro ⟨a, b, c⟩
            by_cases e : j = n
            · exact Or.inr e
            · exact Or.inl ⟨by omega, b, c⟩
        · intro t; rw [h3]
          constructor
          · rintro ⟨j, a, b⟩; exact ⟨j, by omega, b⟩
          · rintro ⟨j, a, b, c, d, e⟩
            by_cases hj : j = n
            · subst hj; rw [c, hm1] at d; cases d
            · exact ⟨j, by omega, b, c, d, e⟩
      · simp only [hm1, Bool.false_eq_true, if_false]
        have hm1' : m.has (nbr k n) = false := by simpa using hm1
        by_cases ho : old.has (nbr k n) = true
        · simp only [ho, if_true]
          refine ⟨mask_next n hn27, ?_, ?_⟩
          · intro j; rw [hres, h2]
            constructor
            · rintro (⟨a, b⟩ | rfl)
              · exact ⟨by omega, b⟩
              · exact ⟨by omega, hc, Or.inr ho⟩
            · rintro ⟨a, b, c⟩
              by_cases e : j = n
              · exact Or.inr e
              · exact Or.inl ⟨by omega, b, c⟩
          · intro t
            simp only [List.mem_append, List.mem_singleton, h3]
            constructor
            · rintro (⟨j, a, b⟩ | rfl)
              · exact ⟨j, by omega, b⟩
              · exact ⟨n, by omega, hc, rfl, hm1', ho⟩
            · rintro ⟨j, a, b, c, d, e⟩
              by_cases hj : j = n
              · subst hj; exact Or.inr c
              · exact Or.inl ⟨j, by omega, b, c, d, e⟩
        · simp only [ho, Bool.false_eq_true, if_false, h1]
          refine ⟨mask_next n hn27, ?_, ?_⟩
          · intro j; rw [h2]
            constructor
            · rintro ⟨a, b⟩; exact ⟨by omega, b⟩
            · rintro ⟨a, b, c⟩
              by_cases e : j = n
              · subst e
                rcases c with c | c
                · exact absurd c hm1
                · exact absurd c ho
              · exact ⟨by omega, b, c⟩
          · intro t; rw [h3]
            constructor
            · rintro ⟨j, a, b⟩; exact ⟨j, by omega, b⟩
            · rintro ⟨j, a, b, c, d, e⟩
              by_cases hj : j = n
              · subst hj; rw [c] at e; exact absurd e ho
              · exact ⟨j, by omega, b, c, d, e⟩

theorem findNeighbors_result {V : Type} (m : GoMap Key Unit) (old : GoMap Key V) (k : Key) (j : Nat) :
    (findNeighbors m old k).1.getLsbD j = true ↔ j < 27 ∧ j ≠ 13 ∧
      (m.has (nbr k j) = true ∨ old.has (nbr k j) = true) := by
  have h := fn_fold m old k 27 (le_refl _)
  have e := offsets27_eq
  unfold findNeighbors
  generalize offsets27 = l at e
  generalize (List.range 27).map off = l' at h e
  subst e
  exact h.2.1 j

theorem findNeighbors_toCheck {V : Type} (m : GoMap Key Unit) (old : GoMap Key V) (k t : Key) :
    t ∈ (findNeighbors m old k).2 ↔ ∃ j, j < 27 ∧ j ≠ 13 ∧ t = nbr k j ∧ m.has t = false ∧
      old.has t = true := by
  have h := fn_fold m old k 27 (le_refl _)
  have e := offsets27_eq
  unfold findNeighbors
  generalize offsets27 = l at e
  generalize (List.range 27).map off = l' at h e
  subst e
  exact h.2.2 t

theorem nbrSpec_findNeighbors {V : Type} (m : GoMap Key Unit) (old : GoMap Key V) (k : Key) :
    NbrSpec (fun t => m.has t = true ∨ old.has t = true) k (findNeighbors m old k).1 := by
  rw [nbrSpec_iff]; exact findNeighbors_result m old k

/-- A bit map is full iff the voxel is not exposed. -/
theorem nbrSpec_all {S : Key → Prop} {k : Key} {N : NeighborBitMap} (h : NbrSpec S k N) :
    N = allNeighbors ↔ ¬ Exposed S k := by
  rw [nbrSpec_iff] at h
  rw [exposed_iff]
  constructor
  · rintro rfl ⟨j, h1, h2, h3⟩
    have := (h j).mp (by rw [all_bit']; simp [h1, h2])
    exact h3 this.2.2
  · intro hn
    apply BitVec.eq_of_getLsbD_eq
    intro j hj
    rw [all_bit']
    by_cases hb : N.getLsbD j = true
    · obtain ⟨a, b, _⟩ := (h j).mp hb
      simp [hb, a, b]
    · have : ¬ (j < 27 ∧ j ≠ 13) := by
        rintro ⟨a, b⟩
        apply hb
        rw [h]
        refine ⟨a, b, ?_⟩
        by_contra hs
        exact hn ⟨j, a, b, hs⟩
      have hb' : N.getLsbD j = false := by simpa using hb
      rw [hb']
      by_cases a : j < 27
      · have : j = 13 := by by_contra b; exact this ⟨a, b⟩
        simp [this]
      · simp [a]

theorem nbrSpec_unique {S : Key → Prop} {k : Key} {N N' : NeighborBitMap} (h : NbrSpec S k N)
    (h' : NbrSpec S k N') : N = N' := by
  apply BitVec.eq_of_getLsbD_eq
  intro j hj
  have a := h j
  have b := h' j
  cases h1 : N.getLsbD j <;> cases h2 : N'.getLsbD j <;> simp_all

theorem nbrSpec_congr {S S' : Key → Prop} (hs : ∀ k, S k ↔ S' k) (k : Key) (N : NeighborBitMap) :
    NbrSpec S k N ↔ NbrSpec S' k N := by
  have : S = S' := funext fun k => propext (hs k)
  rw [this]

/-- `diffKeys` on explicit differences. -/
theorem diffKeys_bits (o n : Key) (j : Nat) :
    (diffKeys o n).getLsbD j = true ↔ j < 27 ∧ j ≠ 13 ∧ nbr o j = n := by
  have hn : nbr o j = n ↔ off j = (n.X - o.X, n.Y - o.Y, n.Z - o.Z) := by
    obtain ⟨x, y, z⟩ := o
    obtain ⟨x', y', z'⟩ := n
    unfold nbr Key.shift
    rcases off j with ⟨a, b, c⟩
    simp only [Key.mk.injEq, Prod.mk.injEq]
    omega
  rw [hn]
  unfold diffKeys
  generalize n.X - o.X = a
  generalize n.Y - o.Y = b
  generalize n.Z - o.Z = c
  by_cases hj : j < 32
  · by_cases ha : a = -1 ∨ a = 0 ∨ a = 1
    · by_cases hb : b = -1 ∨ b = 0 ∨ b = 1
      · by_cases hc : c = -1 ∨ c = 0 ∨ c = 1
        · clear hn; revert j
          rcases ha with rfl | rfl | rfl <;> rcases hb with rfl | rfl | rfl <;>
            rcases hc with rfl | rfl | rfl <;>
            decide +kernel
        · have : ∀ r : NeighborBitMap, (if c = -1 then some r else if c = 0 then some (r <<< 1) else
            if c = 1 then some (r <<< (2 * 1)) else none) = none := by
            intro r
            rw [if_neg (by tauto), if_neg (by tauto), if_neg (by tauto)]
          have hr : ¬ (j < 27 ∧ j ≠ 13 ∧ off j = (a, b, c)) := by
            rintro ⟨h1, _, h3⟩
            unfold off at h3; simp only [Prod.mk.injEq] at h3; omega
          simp only [this, hr, iff_false]
          rcases ha with rfl | rfl | rfl <;> rcases hb with rfl | rfl | rfl <;> simp
      · have : ∀ r : NeighborBitMap, (if b = -1 then some r else if b = 0 then some (r <<< 3) else
            if b = 1 then some (r <<< (2 * 3)) else none) = none := by
            intro r
            rw [if_neg (by tauto), if_neg (by tauto), if_neg (by tauto)]
        have hr : ¬ (j < 27 ∧ j ≠ 13 ∧ off j = (a, b, c)) := by
          rintro ⟨h1, _, h3⟩
          unfold off at h3; simp only [Prod.mk.injEq] at h3; omega
        simp only [this, hr, iff_false]
        rcases ha with rfl | rfl | rfl <;> simp
    · have : ∀ r : NeighborBitMap, (if a = -1 then some r else if a = 0 then some (r <<< 9) else
            if a = 1 then some (r <<< (2 * 9)) else none) = none := by
            intro r
            rw [if_neg (by tauto), if_neg (by tauto), if_neg (by tauto)]
      have hr : ¬ (j < 27 ∧ j ≠ 13 ∧ off j = (a, b, c)) := by
        rintro ⟨h1, _, h3⟩
        unfold off at h3; simp only [Prod.mk.injEq] at h3; omega
      simp [this, hr]
  · rw [BitVec.getLsbD_of_ge _ _ (by omega)]
    simp; omega

/-- The mirror bit: neighbour relation is symmetric. -/
theorem nbr_symm {k t : Key} {j : Nat} (hj : j < 27) (h13 : j ≠ 13) (h : t = nbr k j) :
    26 - j < 27 ∧ 26 - j ≠ 13 ∧ nbr t (26 - j) = k := by
  refine ⟨by omega, by omega, ?_⟩
  subst h
  have : ∀ j < 27, (off (26 - j)) = (-(off j).1, -(off j).2.1, -(off j).2.2) := by decide +kernel
  unfold nbr
  rw [this j hj]
  obtain ⟨x, y, z⟩ := k
  simp only [Key.shift, Key.mk.injEq]
  omega

end StlDice
