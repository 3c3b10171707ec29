import Mathlib.Algebra.Order.Field.Rat
import Mathlib.Tactic.Linarith
import Mathlib.Tactic.LinearCombination
import Mathlib.Tactic.Positivity
import Mathlib.Tactic.Ring

/-! # Closed chains of segments around a convex set of the plane -/

namespace StlDice.Polygon

/-- A list has an element with the greatest value among those with a property. -/
theorem exists_max {ι : Type} (S : List ι) (P : ι → Prop) (f : ι → ℚ) (h : ∃ i ∈ S, P i) :
    ∃ i ∈ S, P i ∧ ∀ j ∈ S, P j → f j ≤ f i := by
  induction S with
  | nil => obtain ⟨i, hi, _⟩ := h; cases hi
  | cons a S ih =>
    by_cases hs : ∃ i ∈ S, P i
    · obtain ⟨i, hi, hp, hm⟩ := ih hs
      by_cases ha : P a ∧ f i ≤ f a
      · refine ⟨a, List.mem_cons_self, ha.1, ?_⟩
        intro j hj pj
        rcases List.mem_cons.mp hj with rfl | hj
        · exact le_rfl
        · exact le_trans (hm j hj pj) ha.2
      · refine ⟨i, List.mem_cons_of_mem _ hi, hp, ?_⟩
        intro j hj pj
        rcases List.mem_cons.mp hj with rfl | hj
        · by_contra hc
          exact ha ⟨pj, by linarith⟩
        · exact hm j hj pj
    · obtain ⟨i, hi, hp⟩ := h
      rcases List.mem_cons.mp hi with rfl | hi
      · refine ⟨i, List.mem_cons_self, hp, ?_⟩
        intro j hj pj
        rcases List.mem_cons.mp hj with rfl | hj
        · exact le_rfl
        · exact absurd ⟨j, hj, pj⟩ hs
      · exact absurd ⟨i, hi, hp⟩ hs

/-- On which side of the line through the start of segment `i` the point lies (negative: inside). -/
def side {ι : Type} (s n : ι → ℚ × ℚ) (i : ι) (v : ℚ × ℚ) : ℚ := (n i).1 * (v.1 - (s i).1) + (n i).2 * (v.2 - (s i).2)

/-- Oriented segments from `s i` to `e i` with outward normals `n i`, each followed and preceded by another one, and all on
    the inner side of each other. -/
structure Ring {ι : Type} (S : List ι) (s e n : ι → ℚ × ℚ) : Prop where
  dir : ∀ i ∈ S, ∃ k, 0 < k ∧ (e i).1 = (s i).1 + k * (n i).2 ∧ (e i).2 = (s i).2 - k * (n i).1
  nonzero : ∀ i ∈ S, (n i).1 = 0 → (n i).2 ≠ 0
  next : ∀ i ∈ S, ∃ j ∈ S, s j = e i
  prev : ∀ i ∈ S, ∃ j ∈ S, e j = s i
  convex : ∀ i ∈ S, ∀ j ∈ S, side s n i (e j) ≤ 0 ∧ side s n i (s j) ≤ 0

/-- The point and its four neighbours at distance `r` are on the inner side of all segments. -/
def Core {ι : Type} (S : List ι) (s n : ι → ℚ × ℚ) (r : ℚ) (c : ℚ × ℚ) : Prop :=
  ∀ i ∈ S, side s n i (c.1 + r, c.2) ≤ 0 ∧ side s n i (c.1 - r, c.2) ≤ 0 ∧
    side s n i (c.1, c.2 + r) ≤ 0 ∧ side s n i (c.1, c.2 - r) ≤ 0

variable {ι : Type} {S : List ι} {s e n : ι → ℚ × ℚ} {r : ℚ} {c : ℚ × ℚ}

theorem side_end (h : Ring S s e n) {i : ι} (hi : i ∈ S) (v : ℚ × ℚ) :
    side s n i v = (n i).1 * (v.1 - (e i).1) + (n i).2 * (v.2 - (e i).2) := by
  obtain ⟨k, -, h1, h2⟩ := h.dir i hi
  unfold side
  rw [h1, h2]; ring

/-- Mirrored at the line `y = 0` and reversed. -/
theorem Ring.flipY (h : Ring S s e n) :
    Ring S (fun i => ((e i).1, -(e i).2)) (fun i => ((s i).1, -(s i).2)) (fun i => ((n i).1, -(n i).2)) where
  dir i hi := by
    obtain ⟨k, hk, h1, h2⟩ := h.dir i hi
    exact ⟨k, hk, by dsimp only; rw [h1]; ring, by dsimp only; rw [h2]; ring⟩
  nonzero i hi h0 := by
    have := h.nonzero i hi h0
    dsimp only
    exact neg_ne_zero.mpr this
  next i hi := by
    obtain ⟨j, hj, he⟩ := h.prev i hi
    exact ⟨j, hj, by rw [he]⟩
  prev i hi := by
    obtain ⟨j, hj, he⟩ := h.next i hi
    exact ⟨j, hj, by rw [he]⟩
  convex i hi j hj := by
    have h1 := (h.convex i hi j hj).1
    have h2 := (h.convex i hi j hj).2
    rw [side_end h hi] at h1 h2
    unfold side
    dsimp only
    constructor
    · refine le_of_eq_of_le ?_ h2; ring
    · refine le_of_eq_of_le ?_ h1; ring

theorem Core.flipY (h : Ring S s e n) (hc : Core S s n r c) :
    Core S (fun i => ((e i).1, -(e i).2)) (fun i => ((n i).1, -(n i).2)) r (c.1, -c.2) := by
  intro i hi
  obtain ⟨a1, a2, a3, a4⟩ := hc i hi
  rw [side_end h hi] at a1 a2 a3 a4
  unfold side
  dsimp only at *
  refine ⟨le_of_eq_of_le ?_ a1, le_of_eq_of_le ?_ a2, le_of_eq_of_le ?_ a4, le_of_eq_of_le ?_ a3⟩ <;> ring

/-- Mirrored at the line `x = 0` and reversed. -/
theorem Ring.flipX (h : Ring S s e n) :
    Ring S (fun i => (-(e i).1, (e i).2)) (fun i => (-(s i).1, (s i).2)) (fun i => (-(n i).1, (n i).2)) where
  dir i hi := by
    obtain ⟨k, hk, h1, h2⟩ := h.dir i hi
    exact ⟨k, hk, by dsimp only; rw [h1]; ring, by dsimp only; rw [h2]; ring⟩
  nonzero i hi h0 := by
    dsimp only at h0 ⊢
    exact h.nonzero i hi (neg_eq_zero.mp h0)
  next i hi := by
    obtain ⟨j, hj, he⟩ := h.prev i hi
    exact ⟨j, hj, by rw [he]⟩
  prev i hi := by
    obtain ⟨j, hj, he⟩ := h.next i hi
    exact ⟨j, hj, by rw [he]⟩
  convex i hi j hj := by
    have h1 := (h.convex i hi j hj).1
    have h2 := (h.convex i hi j hj).2
    rw [side_end h hi] at h1 h2
    unfold side
    dsimp only
    constructor
    · refine le_of_eq_of_le ?_ h2; ring
    · refine le_of_eq_of_le ?_ h1; ring

theorem Core.flipX (h : Ring S s e n) (hc : Core S s n r c) :
    Core S (fun i => (-(e i).1, (e i).2)) (fun i => (-(n i).1, (n i).2)) r (-c.1, c.2) := by
  intro i hi
  obtain ⟨a1, a2, a3, a4⟩ := hc i hi
  rw [side_end h hi] at a1 a2 a3 a4
  unfold side
  dsimp only at *
  refine ⟨le_of_eq_of_le ?_ a2, le_of_eq_of_le ?_ a1, le_of_eq_of_le ?_ a3, le_of_eq_of_le ?_ a4⟩ <;> ring

/-- A segment parallel to the row does not have the height of the core, which lies on its inner side. -/
theorem flat_side (hr : 0 < r) (hc : Core S s n r c) {i : ι} (hi : i ∈ S) (h0 : (n i).1 = 0) (hn : (n i).2 ≠ 0) :
    (n i).2 * (c.2 - (s i).2) < 0 := by
  obtain ⟨-, -, a3, a4⟩ := hc i hi
  unfold side at a3 a4
  rw [h0] at a3 a4
  dsimp only at a3 a4
  rcases lt_or_gt_of_ne hn with h | h
  · have := mul_pos_of_neg_of_neg h (by linarith : -r < 0)
    linarith
  · have := mul_pos h hr
    linarith

/-- Some segment has its inner side to the right. -/
theorem exists_left (h : Ring S s e n) (hr : 0 < r) (hc : Core S s n r c) (hne : ∃ i, i ∈ S) : ∃ i ∈ S, (n i).1 < 0 := by
  obtain ⟨i0, hi0⟩ := hne
  -- the lowest end
  obtain ⟨a, ha, -, hmin⟩ := exists_max S (fun _ => True) (fun i => -(e i).2) ⟨i0, hi0, trivial⟩
  -- among the lowest ends the last one in the direction of the flat segments
  obtain ⟨i, hi, hlow, hmax⟩ := exists_max S (fun i => (e i).2 = (e a).2) (fun i => -((c.2 - (e i).2) * (e i).1)) ⟨a, ha, rfl⟩
  obtain ⟨j, hj, hs⟩ := h.next i hi
  obtain ⟨k, hk, d1, d2⟩ := h.dir j hj
  have hge : (e a).2 ≤ (e j).2 := by
    have := hmin j hj trivial
    linarith
  rcases lt_trichotomy (n j).1 0 with hn | hn | hn
  · exact ⟨j, hj, hn⟩
  · exfalso
    have hy := h.nonzero j hj hn
    have hf := flat_side hr hc hj hn hy
    rw [hn, hs] at d2
    have ej : (e j).2 = (e i).2 := by linarith
    have := hmax j hj (by rw [ej, hlow])
    rw [ej, d1, hs] at this
    rw [hs] at hf
    have := mul_pos hk (neg_pos.mpr hf)
    linarith
  · exfalso
    have := mul_pos hk hn
    rw [d2, hs, hlow] at hge
    linarith

/-- From the upper end of a segment with the inside to the right, the next one goes on upwards if the core is higher. -/
theorem climb (h : Ring S s e n) (hr : 0 < r) (hc : Core S s n r c) {i : ι} (hi : i ∈ S) (hn : (n i).1 < 0) (hlow : (e i).2 < c.2) :
    ∃ j ∈ S, (n j).1 < 0 ∧ s j = e i := by
  obtain ⟨j, hj, hs⟩ := h.next i hi
  refine ⟨j, hj, ?_, hs⟩
  by_contra hnj
  rw [not_lt] at hnj
  obtain ⟨k, hk, d1, d2⟩ := h.dir j hj
  -- the end of the next segment is inside of this one
  have q := (h.convex i hi j hj).1
  rw [side_end h hi, d1, d2, hs] at q
  have q' : (n i).1 * (n j).2 - (n i).2 * (n j).1 ≤ 0 := by
    by_contra hq
    rw [not_le] at hq
    have := mul_pos hk hq
    linarith
  rcases eq_or_lt_of_le hnj with h0 | hp
  · have hy := h.nonzero j hj h0.symm
    have hf := flat_side hr hc hj h0.symm hy
    rw [hs] at hf
    rw [← h0] at q'
    have h2 : (n j).2 < 0 := by
      by_contra hh
      rw [not_lt] at hh
      have := mul_nonneg hh (by linarith : 0 ≤ c.2 - (e i).2)
      linarith
    have := mul_pos_of_neg_of_neg hn h2
    linarith
  · -- the two lines enclose the core
    obtain ⟨a1, a2, -, -⟩ := hc i hi
    obtain ⟨b1, b2, -, -⟩ := hc j hj
    rw [side_end h hi] at a1 a2
    unfold side at b1 b2
    rw [hs] at b1 b2
    dsimp only at a1 a2 b1 b2
    have m1 := mul_nonneg hp.le (neg_nonneg.mpr a2)
    have m2 := mul_nonneg (neg_pos.mpr hn).le (neg_nonneg.mpr b1)
    have m3 : 0 < (c.2 - (e i).2) := by linarith
    have m4 := mul_nonneg m3.le (sub_nonneg.mpr (le_of_sub_nonpos q'))
    have m5 : 0 < r * (n j).1 * -(n i).1 := by
      have := neg_pos.mpr hn
      positivity
    nlinarith

/-- From the lower end of a segment with the inside to the right, the one before comes from below if the core is lower. -/
theorem descend (h : Ring S s e n) (hr : 0 < r) (hc : Core S s n r c) {i : ι} (hi : i ∈ S) (hn : (n i).1 < 0) (hlow : c.2 < (s i).2) :
    ∃ j ∈ S, (n j).1 < 0 ∧ e j = s i := by
  obtain ⟨j, hj, hnj, he⟩ := climb h.flipY hr (hc.flipY h) hi hn (by dsimp only; linarith)
  refine ⟨j, hj, hnj, ?_⟩
  rw [Prod.mk.injEq, neg_inj] at he
  exact Prod.ext he.1 he.2

theorem rises (h : Ring S s e n) {i : ι} (hi : i ∈ S) (hn : (n i).1 < 0) : (s i).2 < (e i).2 := by
  obtain ⟨k, hk, -, d2⟩ := h.dir i hi
  have := mul_pos hk (neg_pos.mpr hn)
  linarith

/-- The height of the core is reached by a segment with the inside to the right. -/
theorem covers_left (h : Ring S s e n) (hr : 0 < r) (hc : Core S s n r c) (hne : ∃ i, i ∈ S) :
    ∃ i ∈ S, (n i).1 < 0 ∧ (s i).2 ≤ c.2 ∧ c.2 ≤ (e i).2 := by
  obtain ⟨i0, hi0, hn0⟩ := exists_left h hr hc hne
  -- one that begins below
  have low : ∃ i ∈ S, (n i).1 < 0 ∧ (s i).2 ≤ c.2 := by
    by_contra hno
    push Not at hno
    obtain ⟨i, hi, hn, hmax⟩ := exists_max S (fun i => (n i).1 < 0) (fun i => -(s i).2) ⟨i0, hi0, hn0⟩
    obtain ⟨j, hj, hnj, he⟩ := descend h hr hc hi hn (hno i hi hn)
    have h1 := rises h hj hnj
    have h2 := hmax j hj hnj
    rw [he] at h1
    linarith
  obtain ⟨i1, hi1, hn1⟩ := low
  obtain ⟨i, hi, ⟨hn, hs⟩, hmax⟩ := exists_max S (fun i => (n i).1 < 0 ∧ (s i).2 ≤ c.2) (fun i => (e i).2) ⟨i1, hi1, hn1⟩
  refine ⟨i, hi, hn, hs, ?_⟩
  by_contra hlt
  rw [not_le] at hlt
  obtain ⟨j, hj, hnj, he⟩ := climb h hr hc hi hn hlt
  have h1 := rises h hj hnj
  have h2 := hmax j hj ⟨hnj, by rw [he]; exact hlt.le⟩
  rw [he] at h1
  linarith

/-- The height of the core is reached by a segment with the inside to the left. -/
theorem covers_right (h : Ring S s e n) (hr : 0 < r) (hc : Core S s n r c) (hne : ∃ i, i ∈ S) :
    ∃ i ∈ S, 0 < (n i).1 ∧ (e i).2 ≤ c.2 ∧ c.2 ≤ (s i).2 := by
  obtain ⟨i, hi, hn, h1, h2⟩ := covers_left h.flipX hr (hc.flipX h) hne
  exact ⟨i, hi, by dsimp only at hn; linarith, h1, h2⟩

end StlDice.Polygon
