import Verif.Model.Voxelize
import Mathlib.Tactic.Linarith
import Mathlib.Tactic.Ring
import Mathlib.Tactic.Push
import Mathlib.Data.Rat.Floor
import Mathlib.Tactic.FieldSimp
import Mathlib.Tactic.NormNum

/-! # The cells of a rasterised line -/

namespace StlDice

theorem bresLoop_mem {dx dy : Int} (hx : 0 < dx) (h0 : 0 ≤ dy) (h1 : dy ≤ dx) : ∀ (n : Nat) (x0 y0 eps : Int),
    -dx ≤ 2 * eps → 2 * eps < dx → ∀ x y : Int, (x, y) ∈ bresLoop dx dy n x0 y0 eps ↔
      x0 ≤ x ∧ x < x0 + n ∧ -dx ≤ 2 * (eps + (x - x0) * dy - (y - y0) * dx) ∧
        2 * (eps + (x - x0) * dy - (y - y0) * dx) < dx := by
  intro n
  induction n with
  | zero =>
    intro x0 y0 eps _ _ x y
    rw [bresLoop]
    constructor
    · intro h; exact (List.not_mem_nil h).elim
    · intro h; omega
  | succ n ih =>
    intro x0 y0 eps he1 he2 x y
    rw [bresLoop]
    have first : (x, y) = (x0, y0) ↔ x = x0 ∧ -dx ≤ 2 * (eps + (x - x0) * dy - (y - y0) * dx) ∧
        2 * (eps + (x - x0) * dy - (y - y0) * dx) < dx := by
      rw [Prod.mk.injEq]
      constructor
      · rintro ⟨rfl, rfl⟩
        refine ⟨rfl, ?_, ?_⟩ <;> simp only [sub_self, zero_mul, add_zero, sub_zero] <;> omega
      · rintro ⟨rfl, h2, h3⟩
        refine ⟨rfl, ?_⟩
        simp only [sub_self, zero_mul, add_zero] at h2 h3
        have a1 : (y - y0) * dx < dx := by linarith
        have a2 : -dx < (y - y0) * dx := by linarith
        have b1 : y - y0 < 1 := by
          by_contra hc
          have : 1 * dx ≤ (y - y0) * dx := mul_le_mul_of_nonneg_right (by omega) hx.le
          linarith
        have b2 : -1 < y - y0 := by
          by_contra hc
          have : (y - y0) * dx ≤ -1 * dx := mul_le_mul_of_nonneg_right (by omega) hx.le
          linarith
        omega
    have rest : (x, y) ∈ (if 2 * (eps + dy) ≥ dx then bresLoop dx dy n (x0 + 1) (y0 + 1) (eps + dy - dx)
        else bresLoop dx dy n (x0 + 1) y0 (eps + dy)) ↔
        x0 + 1 ≤ x ∧ x < x0 + 1 + n ∧ -dx ≤ 2 * (eps + (x - x0) * dy - (y - y0) * dx) ∧
          2 * (eps + (x - x0) * dy - (y - y0) * dx) < dx := by
      split
      · rw [ih _ _ _ (by omega) (by omega) x y]
        have e : eps + dy - dx + (x - (x0 + 1)) * dy - (y - (y0 + 1)) * dx = eps + (x - x0) * dy - (y - y0) * dx := by ring
        rw [e]
      · rw [ih _ _ _ (by omega) (by omega) x y]
        have e : eps + dy + (x - (x0 + 1)) * dy - (y - y0) * dx = eps + (x - x0) * dy - (y - y0) * dx := by ring
        rw [e]
    rw [List.mem_cons, first, rest]
    push_cast
    constructor
    · rintro (⟨rfl, h⟩ | ⟨h1, h2, h⟩)
      · exact ⟨le_refl _, by omega, h⟩
      · exact ⟨by omega, by omega, h⟩
    · rintro ⟨h1, h2, h⟩
      by_cases e : x = x0
      · exact .inl ⟨e, h⟩
      · exact .inr ⟨by omega, by omega, h⟩

/-- The cells of a line in the first octant: in each column the cell nearest to the line, the lower one if two are. -/
theorem firstOctant_mem {x1 y1 x2 y2 : Int} (hx : x1 < x2) (h0 : y1 ≤ y2) (h1 : y2 - y1 ≤ x2 - x1) (x y : Int) :
    (x, y) ∈ firstOctant x1 y1 x2 y2 ↔ x1 ≤ x ∧ x ≤ x2 ∧
      -(x2 - x1) ≤ 2 * ((x - x1) * (y2 - y1) - (y - y1) * (x2 - x1)) ∧
        2 * ((x - x1) * (y2 - y1) - (y - y1) * (x2 - x1)) < x2 - x1 := by
  unfold firstOctant
  rw [bresLoop_mem (by omega) (by omega) h1 _ x1 y1 0 (by omega) (by omega) x y]
  rw [zero_add]
  have : ((x2 - x1 + 1).toNat : Int) = x2 - x1 + 1 := by omega
  rw [this]
  constructor
  · rintro ⟨a, b, c⟩; exact ⟨a, by omega, c⟩
  · rintro ⟨a, b, c⟩; exact ⟨a, by omega, c⟩

theorem firstOctant_point (x y : Int) : firstOctant x y x y = [(x, y)] := by
  unfold firstOctant
  rw [sub_self, sub_self]
  rfl

/-- In the first octant: near the line. -/
theorem firstOctant_near {x1 y1 x2 y2 : Int} (hx : x1 ≤ x2) (h0 : y1 ≤ y2) (h1 : y2 - y1 ≤ x2 - x1) {x y : Int}
    (h : (x, y) ∈ firstOctant x1 y1 x2 y2) : x1 ≤ x ∧ x ≤ x2 ∧
      -(x2 - x1) ≤ 2 * ((x - x1) * (y2 - y1) - (y - y1) * (x2 - x1)) ∧
        2 * ((x - x1) * (y2 - y1) - (y - y1) * (x2 - x1)) ≤ x2 - x1 := by
  rcases eq_or_lt_of_le hx with rfl | hx
  · have : y1 = y2 := by omega
    subst this
    rw [firstOctant_point, List.mem_singleton, Prod.mk.injEq] at h
    obtain ⟨rfl, rfl⟩ := h
    simp
  · obtain ⟨a, b, c, d⟩ := (firstOctant_mem hx h0 h1 x y).mp h
    exact ⟨a, b, c, d.le⟩

/-- A nearest whole number. -/
theorem exists_nearest (a d : Int) (hd : 0 < d) : ∃ q : Int, -d ≤ 2 * (a - q * d) ∧ 2 * (a - q * d) < d := by
  refine ⟨(2 * a + d) / (2 * d), ?_⟩
  have h1 := Int.emod_add_mul_ediv (2 * a + d) (2 * d)
  have h2 := Int.emod_nonneg (2 * a + d) (b := 2 * d) (by omega)
  have h3 := Int.emod_lt_of_pos (2 * a + d) (b := 2 * d) (by omega)
  generalize (2 * a + d) / (2 * d) = q at *
  have e : 2 * (a - q * d) = (2 * a + d) - 2 * d * q - d := by ring
  constructor <;> rw [e] <;> omega

/-- In the first octant: a cell in each column. -/
theorem firstOctant_column {x1 y1 x2 y2 : Int} (h0 : y1 ≤ y2) (h1 : y2 - y1 ≤ x2 - x1) {x : Int}
    (hx1 : x1 ≤ x) (hx2 : x ≤ x2) : ∃ y, (x, y) ∈ firstOctant x1 y1 x2 y2 := by
  rcases eq_or_lt_of_le (le_trans hx1 hx2) with rfl | hx
  · have e1 : y1 = y2 := by omega
    have e2 : x = x1 := by omega
    subst e1 e2
    exact ⟨y1, by rw [firstOctant_point]; exact List.mem_singleton_self _⟩
  · obtain ⟨q, hq⟩ := exists_nearest ((x - x1) * (y2 - y1)) (x2 - x1) (by omega)
    refine ⟨y1 + q, (firstOctant_mem hx h0 h1 _ _).mpr ⟨hx1, hx2, ?_⟩⟩
    rw [add_sub_cancel_left]
    exact hq

/-- In the first octant: a cell in each row. -/
theorem firstOctant_row {x1 y1 x2 y2 : Int} (hx : x1 ≤ x2) (h1 : y2 - y1 ≤ x2 - x1) {y : Int}
    (hy1 : y1 ≤ y) (hy2 : y ≤ y2) : ∃ x, (x, y) ∈ firstOctant x1 y1 x2 y2 := by
  rcases eq_or_lt_of_le hx with rfl | hx
  · have e1 : y1 = y2 := by omega
    have e2 : y = y1 := by omega
    subst e1 e2
    exact ⟨x1, by rw [firstOctant_point]; exact List.mem_singleton_self _⟩
  rcases eq_or_lt_of_le (le_trans hy1 hy2) with rfl | hy
  · have e2 : y = y1 := by omega
    subst e2
    refine ⟨x1, (firstOctant_mem hx le_rfl h1 _ _).mpr ⟨le_rfl, hx.le, ?_⟩⟩
    simp only [sub_self, mul_zero, zero_mul]
    omega
  · obtain ⟨q, hq1, hq2⟩ := exists_nearest ((y - y1) * (x2 - x1)) (y2 - y1) (by omega)
    have q0 : 0 ≤ q := by
      by_contra hc
      have a : 0 ≤ (y - y1) * (x2 - x1) := mul_nonneg (by omega) (by omega)
      have b : q * (y2 - y1) ≤ -1 * (y2 - y1) := mul_le_mul_of_nonneg_right (by omega) (by omega)
      linarith
    have q1 : q ≤ x2 - x1 := by
      by_contra hc
      have a : (y - y1) * (x2 - x1) ≤ (y2 - y1) * (x2 - x1) := mul_le_mul_of_nonneg_right (by omega) (by omega)
      have b : (x2 - x1 + 1) * (y2 - y1) ≤ q * (y2 - y1) := mul_le_mul_of_nonneg_right (by omega) (by omega)
      have c : (x2 - x1 + 1) * (y2 - y1) = (y2 - y1) * (x2 - x1) + (y2 - y1) := by ring
      linarith
    refine ⟨x1 + q, (firstOctant_mem hx hy.le h1 _ _).mpr ⟨by omega, by omega, ?_⟩⟩
    rw [add_sub_cancel_left]
    refine ⟨by linarith, ?_⟩
    by_contra hc
    -- the difference is half the width: both widths are equal and it is a multiple of them
    have e1 : y2 - y1 = x2 - x1 := by linarith
    rw [e1] at hq1 hq2 hc
    have e : q * (x2 - x1) - (y - y1) * (x2 - x1) = (q - (y - y1)) * (x2 - x1) := by ring
    have h2 : 2 * ((q - (y - y1)) * (x2 - x1)) ≤ x2 - x1 := by linarith
    have h3 : (q - (y - y1)) < 1 := by
      by_contra hc2
      have : 1 * (x2 - x1) ≤ (q - (y - y1)) * (x2 - x1) := mul_le_mul_of_nonneg_right (by omega) (by omega)
      linarith
    have h4 : (q - (y - y1)) * (x2 - x1) ≤ 0 * (x2 - x1) := mul_le_mul_of_nonneg_right (by omega) (by omega)
    linarith

/-! ## All octants -/

/-- `t` is the parameter of a point of the line within half a cell of `(x, y)`. -/
def NearLine (x1 y1 x2 y2 x y : Int) (t : ℚ) : Prop :=
  |(x : ℚ) - (x1 + t * (x2 - x1))| ≤ 1 / 2 ∧ |(y : ℚ) - (y1 + t * (y2 - y1))| ≤ 1 / 2

theorem firstOctant_nearLine {x1 y1 x2 y2 : Int} (hx : x1 ≤ x2) (h0 : y1 ≤ y2) (h1 : y2 - y1 ≤ x2 - x1) {x y : Int}
    (h : (x, y) ∈ firstOctant x1 y1 x2 y2) : ∃ t : ℚ, 0 ≤ t ∧ t ≤ 1 ∧ NearLine x1 y1 x2 y2 x y t := by
  obtain ⟨a, b, c, d⟩ := firstOctant_near hx h0 h1 h
  rcases eq_or_lt_of_le hx with rfl | hx
  · have e1 : y1 = y2 := by omega
    have e2 : x = x1 := by omega
    subst e1 e2
    rw [firstOctant_point, List.mem_singleton, Prod.mk.injEq] at h
    obtain ⟨-, rfl⟩ := h
    refine ⟨0, le_rfl, zero_le_one, ?_⟩
    unfold NearLine
    norm_num
  · have hp : (0 : ℚ) < (x2 : ℚ) - x1 := by
      have : (x1 : ℚ) < x2 := by exact_mod_cast hx
      linarith
    have a' : (x1 : ℚ) ≤ x := by exact_mod_cast a
    have b' : (x : ℚ) ≤ x2 := by exact_mod_cast b
    refine ⟨((x : ℚ) - x1) / (x2 - x1), div_nonneg (by linarith) hp.le, (div_le_one hp).mpr (by linarith), ?_, ?_⟩
    · have e : ((x : ℚ) - x1) / (x2 - x1) * (x2 - x1) = x - x1 := div_mul_cancel₀ _ hp.ne'
      rw [e]
      norm_num
    · have c' : -((x2 : ℚ) - x1) ≤ 2 * (((x : ℚ) - x1) * (y2 - y1) - (y - y1) * (x2 - x1)) := by exact_mod_cast c
      have d' : 2 * (((x : ℚ) - x1) * (y2 - y1) - (y - y1) * (x2 - x1)) ≤ (x2 : ℚ) - x1 := by exact_mod_cast d
      have e : (y : ℚ) - (y1 + ((x : ℚ) - x1) / (x2 - x1) * (y2 - y1)) =
          -(((x : ℚ) - x1) * (y2 - y1) - (y - y1) * (x2 - x1)) / (x2 - x1) := by
        field_simp
        ring
      rw [e, abs_le]
      constructor
      · rw [le_div_iff₀ hp]; linarith
      · rw [div_le_iff₀ hp]; linarith

theorem nearLine_swap {x1 y1 x2 y2 x y : Int} {t : ℚ} (h : NearLine x1 y1 x2 y2 x y t) : NearLine y1 x1 y2 x2 y x t :=
  ⟨h.2, h.1⟩

theorem nearLine_negX {x1 y1 x2 y2 x y : Int} {t : ℚ} (h : NearLine x1 y1 x2 y2 x y t) : NearLine (-x1) y1 (-x2) y2 (-x) y t := by
  refine ⟨?_, h.2⟩
  have := h.1
  rw [← abs_neg] at this
  push_cast
  refine le_of_eq_of_le (congrArg abs ?_) this
  ring

theorem nearLine_negY {x1 y1 x2 y2 x y : Int} {t : ℚ} (h : NearLine x1 y1 x2 y2 x y t) : NearLine x1 (-y1) x2 (-y2) x (-y) t :=
  nearLine_swap (nearLine_negX (nearLine_swap h))

/-- Every cell of a rasterised line is within half a cell of a point of the line between the cells at its ends. -/
theorem rasterLine_near {x1 y1 x2 y2 x y : Int} (h : (x, y) ∈ rasterLine x1 y1 x2 y2) :
    ∃ t : ℚ, 0 ≤ t ∧ t ≤ 1 ∧ NearLine x1 y1 x2 y2 x y t := by
  unfold rasterLine at h
  dsimp only at h
  split at h
  · exact firstOctant_nearLine (by omega) (by omega) (by omega) h
  split at h
  · obtain ⟨⟨a, b⟩, hm, he⟩ := List.mem_map.mp h
    obtain ⟨rfl, rfl⟩ := Prod.mk.inj he
    obtain ⟨t, h0, h1, hn⟩ := firstOctant_nearLine (by omega) (by omega) (by omega) hm
    exact ⟨t, h0, h1, nearLine_swap hn⟩
  split at h
  · obtain ⟨⟨a, b⟩, hm, he⟩ := List.mem_map.mp h
    obtain ⟨rfl, rfl⟩ := Prod.mk.inj he
    obtain ⟨t, h0, h1, hn⟩ := firstOctant_nearLine (by omega) (by omega) (by omega) hm
    have := nearLine_negX (nearLine_swap hn)
    rw [neg_neg, neg_neg] at this
    exact ⟨t, h0, h1, this⟩
  split at h
  · obtain ⟨⟨a, b⟩, hm, he⟩ := List.mem_map.mp h
    obtain ⟨rfl, rfl⟩ := Prod.mk.inj he
    obtain ⟨t, h0, h1, hn⟩ := firstOctant_nearLine (by omega) (by omega) (by omega) hm
    have := nearLine_negX hn
    rw [neg_neg, neg_neg] at this
    exact ⟨t, h0, h1, this⟩
  split at h
  · obtain ⟨⟨a, b⟩, hm, he⟩ := List.mem_map.mp h
    obtain ⟨rfl, rfl⟩ := Prod.mk.inj he
    obtain ⟨t, h0, h1, hn⟩ := firstOctant_nearLine (by omega) (by omega) (by omega) hm
    have := nearLine_negY (nearLine_negX hn)
    rw [neg_neg, neg_neg, neg_neg, neg_neg] at this
    exact ⟨t, h0, h1, this⟩
  split at h
  · obtain ⟨⟨a, b⟩, hm, he⟩ := List.mem_map.mp h
    obtain ⟨rfl, rfl⟩ := Prod.mk.inj he
    obtain ⟨t, h0, h1, hn⟩ := firstOctant_nearLine (by omega) (by omega) (by omega) hm
    have := nearLine_negY (nearLine_negX (nearLine_swap hn))
    rw [neg_neg, neg_neg, neg_neg, neg_neg] at this
    exact ⟨t, h0, h1, this⟩
  split at h
  · obtain ⟨⟨a, b⟩, hm, he⟩ := List.mem_map.mp h
    obtain ⟨rfl, rfl⟩ := Prod.mk.inj he
    obtain ⟨t, h0, h1, hn⟩ := firstOctant_nearLine (by omega) (by omega) (by omega) hm
    have := nearLine_negY (nearLine_swap hn)
    rw [neg_neg, neg_neg] at this
    exact ⟨t, h0, h1, this⟩
  · obtain ⟨⟨a, b⟩, hm, he⟩ := List.mem_map.mp h
    obtain ⟨rfl, rfl⟩ := Prod.mk.inj he
    obtain ⟨t, h0, h1, hn⟩ := firstOctant_nearLine (by omega) (by omega) (by omega) hm
    have := nearLine_negY hn
    rw [neg_neg, neg_neg] at this
    exact ⟨t, h0, h1, this⟩

/-- A rasterised line has a cell in each row from one end to the other. -/
theorem rasterLine_row {x1 y1 x2 y2 y : Int} (h : (y1 ≤ y ∧ y ≤ y2) ∨ (y2 ≤ y ∧ y ≤ y1)) :
    ∃ x, (x, y) ∈ rasterLine x1 y1 x2 y2 := by
  unfold rasterLine
  dsimp only
  split
  · exact firstOctant_row (by omega) (by omega) (by omega) (by omega)
  split
  · obtain ⟨x, hm⟩ := firstOctant_column (x1 := y1) (y1 := x1) (x2 := y2) (y2 := x2) (x := y) (by omega) (by omega) (by omega) (by omega)
    exact ⟨x, List.mem_map.mpr ⟨_, hm, rfl⟩⟩
  split
  · obtain ⟨x, hm⟩ := firstOctant_column (x1 := y1) (y1 := -x1) (x2 := y2) (y2 := -x2) (x := y) (by omega) (by omega) (by omega) (by omega)
    exact ⟨-x, List.mem_map.mpr ⟨_, hm, rfl⟩⟩
  split
  · obtain ⟨x, hm⟩ := firstOctant_row (x1 := -x1) (y1 := y1) (x2 := -x2) (y2 := y2) (y := y) (by omega) (by omega) (by omega) (by omega)
    exact ⟨-x, List.mem_map.mpr ⟨_, hm, rfl⟩⟩
  split
  · obtain ⟨x, hm⟩ := firstOctant_row (x1 := -x1) (y1 := -y1) (x2 := -x2) (y2 := -y2) (y := -y) (by omega) (by omega) (by omega) (by omega)
    exact ⟨-x, List.mem_map.mpr ⟨_, hm, by rw [neg_neg]⟩⟩
  split
  · obtain ⟨x, hm⟩ := firstOctant_column (x1 := -y1) (y1 := -x1) (x2 := -y2) (y2 := -x2) (x := -y) (by omega) (by omega) (by omega) (by omega)
    exact ⟨-x, List.mem_map.mpr ⟨_, hm, by rw [neg_neg]⟩⟩
  split
  · obtain ⟨x, hm⟩ := firstOctant_column (x1 := -y1) (y1 := x1) (x2 := -y2) (y2 := x2) (x := -y) (by omega) (by omega) (by omega) (by omega)
    exact ⟨x, List.mem_map.mpr ⟨_, hm, by rw [neg_neg]⟩⟩
  · obtain ⟨x, hm⟩ := firstOctant_row (x1 := x1) (y1 := -y1) (x2 := x2) (y2 := -y2) (y := -y) (by omega) (by omega) (by omega) (by omega)
    exact ⟨x, List.mem_map.mpr ⟨_, hm, by rw [neg_neg]⟩⟩

/-- The point with parameter `t` is within one cell of `(x, y)`. -/
def WithinLine (x1 y1 x2 y2 x y : Int) (t : ℚ) : Prop :=
  |(x : ℚ) - (x1 + t * (x2 - x1))| ≤ 1 ∧ |(y : ℚ) - (y1 + t * (y2 - y1))| ≤ 1

theorem firstOctant_covers {x1 y1 x2 y2 : Int} (hx : x1 ≤ x2) (h0 : y1 ≤ y2) (h1 : y2 - y1 ≤ x2 - x1) {t : ℚ} (ht0 : 0 ≤ t)
    (ht1 : t ≤ 1) : ∃ x y, (x, y) ∈ firstOctant x1 y1 x2 y2 ∧ WithinLine x1 y1 x2 y2 x y t := by
  have hd : (0 : ℚ) ≤ (x2 : ℚ) - x1 := by
    have : (x1 : ℚ) ≤ x2 := by exact_mod_cast hx
    linarith
  have hy : (0 : ℚ) ≤ (y2 : ℚ) - y1 := by
    have : (y1 : ℚ) ≤ y2 := by exact_mod_cast h0
    linarith
  have hs : (y2 : ℚ) - y1 ≤ x2 - x1 := by exact_mod_cast h1
  -- a column next to the point
  have hc1 : (0 : ℚ) ≤ t * (x2 - x1) := mul_nonneg ht0 hd
  have hc2 : t * ((x2 : ℚ) - x1) ≤ x2 - x1 := mul_le_of_le_one_left hd ht1
  obtain ⟨k, hk0, hk1, hk2⟩ : ∃ k : Int, 0 ≤ k ∧ k ≤ x2 - x1 ∧ |(k : ℚ) - t * (x2 - x1)| ≤ 1 / 2 := by
    refine ⟨⌊t * (x2 - x1) + 1 / 2⌋, ?_, ?_, ?_⟩
    · exact Int.floor_nonneg.mpr (by linarith)
    · have : ⌊t * ((x2 : ℚ) - x1) + 1 / 2⌋ < x2 - x1 + 1 := by
        rw [Int.floor_lt]
        push_cast
        linarith
      omega
    · have a := Int.floor_le (t * ((x2 : ℚ) - x1) + 1 / 2)
      have b := Int.lt_floor_add_one (t * ((x2 : ℚ) - x1) + 1 / 2)
      rw [abs_le]
      constructor <;> linarith
  obtain ⟨y, hm⟩ := firstOctant_column (x := x1 + k) h0 h1 (by omega) (by omega)
  refine ⟨x1 + k, y, hm, ?_, ?_⟩
  · push_cast
    have : (x1 : ℚ) + k - (x1 + t * (x2 - x1)) = k - t * (x2 - x1) := by ring
    rw [this]
    linarith
  · obtain ⟨-, -, c, d⟩ := firstOctant_near hx h0 h1 hm
    rw [add_sub_cancel_left] at c d
    rcases eq_or_lt_of_le hx with rfl | hx
    · have e1 : y1 = y2 := by omega
      subst e1
      have hk : k = 0 := by omega
      subst hk
      rw [add_zero, firstOctant_point, List.mem_singleton, Prod.mk.injEq] at hm
      rw [hm.2]
      norm_num
    · have hp : (0 : ℚ) < (x2 : ℚ) - x1 := by
        have : (x1 : ℚ) < x2 := by exact_mod_cast hx
        linarith
      have c' : -((x2 : ℚ) - x1) ≤ 2 * ((k : ℚ) * (y2 - y1) - (y - y1) * (x2 - x1)) := by exact_mod_cast c
      have d' : 2 * ((k : ℚ) * (y2 - y1) - (y - y1) * (x2 - x1)) ≤ (x2 : ℚ) - x1 := by exact_mod_cast d
      obtain ⟨k1, k2⟩ := abs_le.mp hk2
      have f1 : ((k : ℚ) - t * (x2 - x1)) * (y2 - y1) ≤ 1 / 2 * (x2 - x1) :=
        le_trans (mul_le_mul_of_nonneg_right k2 hy) (mul_le_mul_of_nonneg_left hs (by norm_num))
      have f2 : -(1 / 2 * ((x2 : ℚ) - x1)) ≤ ((k : ℚ) - t * (x2 - x1)) * (y2 - y1) := by
        have := mul_le_mul_of_nonneg_right k1 hy
        have := mul_le_mul_of_nonneg_left hs (show (0 : ℚ) ≤ 1 / 2 by norm_num)
        linarith
      have e : ((y : ℚ) - (y1 + t * (y2 - y1))) * (x2 - x1) =
          -((k : ℚ) * (y2 - y1) - (y - y1) * (x2 - x1)) + ((k : ℚ) - t * (x2 - x1)) * (y2 - y1) := by ring
      rw [abs_le]
      constructor
      · refine le_of_mul_le_mul_right ?_ hp
        rw [e]
        linarith
      · refine le_of_mul_le_mul_right ?_ hp
        rw [e]
        linarith

theorem withinLine_swap {x1 y1 x2 y2 x y : Int} {t : ℚ} (h : WithinLine x1 y1 x2 y2 x y t) : WithinLine y1 x1 y2 x2 y x t :=
  ⟨h.2, h.1⟩

theorem withinLine_negX {x1 y1 x2 y2 x y : Int} {t : ℚ} (h : WithinLine x1 y1 x2 y2 x y t) :
    WithinLine (-x1) y1 (-x2) y2 (-x) y t := by
  refine ⟨?_, h.2⟩
  have := h.1
  rw [← abs_neg] at this
  push_cast
  refine le_of_eq_of_le (congrArg abs ?_) this
  ring

theorem withinLine_negY {x1 y1 x2 y2 x y : Int} {t : ℚ} (h : WithinLine x1 y1 x2 y2 x y t) :
    WithinLine x1 (-y1) x2 (-y2) x (-y) t :=
  withinLine_swap (withinLine_negX (withinLine_swap h))

/-- Every point of the line between two cells is within one cell of a rasterised cell. -/
theorem rasterLine_covers (x1 y1 x2 y2 : Int) {t : ℚ} (ht0 : 0 ≤ t) (ht1 : t ≤ 1) :
    ∃ x y, (x, y) ∈ rasterLine x1 y1 x2 y2 ∧ WithinLine x1 y1 x2 y2 x y t := by
  unfold rasterLine
  dsimp only
  split
  · exact firstOctant_covers (by omega) (by omega) (by omega) ht0 ht1
  split
  · obtain ⟨a, b, hm, hn⟩ := firstOctant_covers (x1 := y1) (y1 := x1) (x2 := y2) (y2 := x2) (by omega) (by omega) (by omega) ht0 ht1
    exact ⟨b, a, List.mem_map.mpr ⟨_, hm, rfl⟩, withinLine_swap hn⟩
  split
  · obtain ⟨a, b, hm, hn⟩ := firstOctant_covers (x1 := y1) (y1 := -x1) (x2 := y2) (y2 := -x2) (by omega) (by omega) (by omega) ht0 ht1
    have := withinLine_negX (withinLine_swap hn)
    rw [neg_neg, neg_neg] at this
    exact ⟨-b, a, List.mem_map.mpr ⟨_, hm, rfl⟩, this⟩
  split
  · obtain ⟨a, b, hm, hn⟩ := firstOctant_covers (x1 := -x1) (y1 := y1) (x2 := -x2) (y2 := y2) (by omega) (by omega) (by omega) ht0 ht1
    have := withinLine_negX hn
    rw [neg_neg, neg_neg] at this
    exact ⟨-a, b, List.mem_map.mpr ⟨_, hm, rfl⟩, this⟩
  split
  · obtain ⟨a, b, hm, hn⟩ := firstOctant_covers (x1 := -x1) (y1 := -y1) (x2 := -x2) (y2 := -y2) (by omega) (by omega) (by omega) ht0 ht1
    have := withinLine_negY (withinLine_negX hn)
    rw [neg_neg, neg_neg, neg_neg, neg_neg] at this
    exact ⟨-a, -b, List.mem_map.mpr ⟨_, hm, rfl⟩, this⟩
  split
  · obtain ⟨a, b, hm, hn⟩ := firstOctant_covers (x1 := -y1) (y1 := -x1) (x2 := -y2) (y2 := -x2) (by omega) (by omega) (by omega) ht0 ht1
    have := withinLine_negY (withinLine_negX (withinLine_swap hn))
    rw [neg_neg, neg_neg, neg_neg, neg_neg] at this
    exact ⟨-b, -a, List.mem_map.mpr ⟨_, hm, rfl⟩, this⟩
  split
  · obtain ⟨a, b, hm, hn⟩ := firstOctant_covers (x1 := -y1) (y1 := x1) (x2 := -y2) (y2 := x2) (by omega) (by omega) (by omega) ht0 ht1
    have := withinLine_negY (withinLine_swap hn)
    rw [neg_neg, neg_neg] at this
    exact ⟨b, -a, List.mem_map.mpr ⟨_, hm, rfl⟩, this⟩
  · obtain ⟨a, b, hm, hn⟩ := firstOctant_covers (x1 := x1) (y1 := -y1) (x2 := x2) (y2 := -y2) (by omega) (by omega) (by omega) ht0 ht1
    have := withinLine_negY hn
    rw [neg_neg, neg_neg] at this
    exact ⟨a, -b, List.mem_map.mpr ⟨_, hm, rfl⟩, this⟩

end StlDice
