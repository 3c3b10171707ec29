import Verif.Model.Float64

/-! # Rounding: exact cases, error bounds, Sterbenz -/

namespace StlDice
namespace F64
open Spec

theorem ext {a b : F64} (h : a.val = b.val) : a = b := by
  cases a; cases b; cases h; rfl

theorem of_val (q : ℚ) : (of q).val = rnd q := rfl

theorem of_exact {q : ℚ} (h : Binary64 q) : (of q).val = q := rnd_of_mem h

theorem val_mem (a : F64) : Binary64 a.val := (mem_iff _).mpr a.rep

theorem of_self (a : F64) : of a.val = a := ext a.rep

theorem binary64_zero : Binary64 0 := ⟨0, 0, by norm_num, by norm_num, by norm_num⟩

theorem binary64_int {n : Int} (h : |n| ≤ 2 ^ 53) : Binary64 n := ⟨n, 0, h, by norm_num, by simp⟩

/-- Half integers up to `2^52`. -/
theorem binary64_half {n : Int} (h : |n| ≤ 2 ^ 53) : Binary64 ((n : ℚ) / 2) :=
  ⟨n, -1, h, by norm_num, by rw [zpow_neg_one]; rfl⟩

theorem binary64_neg {x : ℚ} (h : Binary64 x) : Binary64 (-x) := by
  obtain ⟨m, e, hm, he, rfl⟩ := h
  exact ⟨-m, e, by rwa [abs_neg], he, by push_cast; ring⟩

theorem binary64_double {x : ℚ} (h : Binary64 x) : Binary64 (2 * x) := by
  obtain ⟨m, e, hm, he, rfl⟩ := h
  refine ⟨m, e + 1, hm, by omega, ?_⟩
  rw [zpow_add_one₀ (by norm_num)]
  ring

theorem binary64_of_half {x : ℚ} (h : Binary64 (x / 2)) : Binary64 x := by
  have := binary64_double h
  rwa [mul_div_cancel₀ _ (by norm_num : (2 : ℚ) ≠ 0)] at this

theorem rnd_zero : rnd 0 = 0 := rfl

theorem rnd_neg (q : ℚ) : rnd (-q) = -rnd q := by
  refine nearestEven_unique (rnd_nearestEven (-q)) ?_
  obtain ⟨h1, h2, h3⟩ := rnd_nearestEven q
  have flip : ∀ x : ℚ, |-q - x| = |q - -x| := fun x => by
    rw [← abs_neg]; congr 1; ring
  refine ⟨binary64_neg h1, fun x hx => ?_, fun x hx hne he => ?_⟩
  · rw [flip, flip, neg_neg]
    exact h2 _ (binary64_neg hx)
  · rw [flip, flip, neg_neg] at he
    obtain ⟨m, hm⟩ := h3 (-x) (binary64_neg hx) (fun h => hne (by rw [← h, neg_neg])) he
    refine ⟨-m, ?_⟩
    have : |-rnd q - x| = |rnd q - -x| := by rw [← abs_neg]; congr 1; ring
    rw [this]
    push_cast
    linarith

theorem rnd_nonneg {q : ℚ} (h : 0 ≤ q) : 0 ≤ rnd q := by
  have := rnd_mono h
  rwa [rnd_zero] at this

theorem rnd_abs (q : ℚ) : |rnd q| = rnd |q| := by
  rcases le_total 0 q with h | h
  · rw [abs_of_nonneg h, abs_of_nonneg (rnd_nonneg h)]
  · rw [abs_of_nonpos h, rnd_neg]
    have := rnd_nonneg (q := -q) (by linarith)
    rw [rnd_neg] at this
    exact abs_of_nonpos (by linarith)

/-- The error of one rounding: half a unit in the last place. -/
theorem rnd_error_ulp (q : ℚ) : |rnd q - q| ≤ (2 : ℚ) ^ (expOf q - 1) := by
  by_cases hq : q = 0
  · subst hq
    rw [rnd_zero, sub_self, abs_zero]
    positivity
  have hr := rnd_eq hq
  generalize expOf q = e at *
  have p : (0 : ℚ) < 2 ^ e := by positivity
  have hh : |q / 2 ^ e - rne (q / 2 ^ e)| ≤ 1 / 2 := by
    generalize q / 2 ^ e = y
    have a1 := rne_nearest y y.floor
    have a2 := rne_nearest y (y.floor + 1)
    have h1 : ((y.floor : Int) : ℚ) ≤ y := Rat.floor_le y
    have h2 : y < (y.floor : ℚ) + 1 := by
      have := Rat.lt_floor_add_one y
      exact_mod_cast this
    push_cast at a2
    rw [abs_of_nonneg (by linarith : 0 ≤ y - y.floor)] at a1
    rw [abs_of_nonpos (by linarith : y - (y.floor + 1) ≤ 0)] at a2
    linarith
  rw [hr, abs_sub_comm]
  have : q - rne (q / 2 ^ e) * 2 ^ e = (q / 2 ^ e - rne (q / 2 ^ e)) * 2 ^ e := by field_simp
  rw [this, abs_mul, abs_of_pos p, zpow_sub_one₀ (by norm_num)]
  calc _ ≤ 1 / 2 * (2 : ℚ) ^ e := mul_le_mul_of_nonneg_right hh p.le
    _ = _ := by ring

/-- The relative error of one rounding. -/
theorem rnd_error {q : ℚ} (h : (2 : ℚ) ^ (-1022 : Int) ≤ |q|) : |rnd q - q| ≤ |q| / 2 ^ 53 := by
  have hq : q ≠ 0 := by
    rintro rfl
    rw [abs_zero] at h
    exact absurd h (not_le.mpr (by positivity))
  refine (rnd_error_ulp q).trans ?_
  obtain ⟨h1, h2, h3⟩ := expOf_spec hq
  have key : (2 : ℚ) ^ (expOf q + 52) ≤ |q| := by
    rcases h3 with h3 | h3
    · rw [h3]; exact h
    · exact h3
  rw [le_div_iff₀ (by positivity)]
  refine le_trans (le_of_eq ?_) key
  rw [← zpow_natCast, ← zpow_add₀ (by norm_num)]
  congr 1
  push_cast
  omega

/-- A small enough multiple of `2^e` is a binary64 number. -/
theorem binary64_mult {x : ℚ} {n e : Int} (he : -1074 ≤ e) (hx : x = n * 2 ^ e) (hb : |x| ≤ (2 : ℚ) ^ (e + 53)) :
    Binary64 x := by
  refine ⟨n, e, ?_, he, hx⟩
  have p : (0 : ℚ) < 2 ^ e := by positivity
  rw [hx, abs_mul, abs_of_pos p, zpow_add₀ (by norm_num), mul_comm] at hb
  have := le_of_mul_le_mul_left hb p
  have h2 : |(n : ℚ)| ≤ ((2 ^ 53 : Int) : ℚ) := by
    rw [Int.cast_pow, Int.cast_ofNat]
    exact_mod_cast this
  exact_mod_cast h2

/-- Binary64 numbers as multiples of a common last bit. -/
theorem common {x y : ℚ} (hx : Binary64 x) (hy : Binary64 y) : ∃ g m n : Int, -1074 ≤ g ∧ x = m * 2 ^ g ∧ y = n * 2 ^ g ∧
    (|m| ≤ 2 ^ 53 ∨ |n| ≤ 2 ^ 53) := by
  obtain ⟨m, e, hm, he, rfl⟩ := hx
  obtain ⟨n, f, hn, hf, rfl⟩ := hy
  have up : ∀ (k a g : Int), g ≤ a → (k : ℚ) * 2 ^ a = ((k * 2 ^ (a - g).toNat : Int) : ℚ) * 2 ^ g := by
    intro k a g h
    push_cast
    rw [mul_assoc, ← zpow_natCast, ← zpow_add₀ (by norm_num)]
    congr 2
    omega
  rcases le_total e f with h | h
  · exact ⟨e, m, _, he, rfl, up n f e h, .inl hm⟩
  · exact ⟨f, _, n, hf, up m e f h, rfl, .inr hn⟩

/-- A sum has no error from underflow. -/
theorem add_error {x y : ℚ} (hx : Binary64 x) (hy : Binary64 y) : |rnd (x + y) - (x + y)| ≤ |x + y| / 2 ^ 53 := by
  by_cases h : (2 : ℚ) ^ (-1022 : Int) ≤ |x + y|
  · exact rnd_error h
  · push Not at h
    have : Binary64 (x + y) := by
      obtain ⟨g, m, n, hg, h1, h2, -⟩ := common hx hy
      refine binary64_mult (n := (m + n) * 2 ^ (g + 1074).toNat) (e := -1074) (by norm_num) ?_ (h.le.trans ?_)
      · rw [h1, h2]
        push_cast
        rw [mul_assoc, ← zpow_natCast, ← zpow_add₀ (by norm_num)]
        have : ((g + 1074).toNat : Int) + -1074 = g := by omega
        rw [this]
        ring
      · exact zpow_le_zpow_right₀ (by norm_num) (by norm_num)
    rw [rnd_of_mem this, sub_self, abs_zero]
    positivity

/-- **Sterbenz.**  The difference of two numbers within a factor of two is exact. -/
theorem sterbenz {x y : ℚ} (hx : Binary64 x) (hy : Binary64 y) (h1 : x ≤ y) (h2 : y ≤ 2 * x) : Binary64 (y - x) := by
  obtain ⟨g, m, n, hg, e1, e2, hb⟩ := common hx hy
  have p : (0 : ℚ) < 2 ^ g := by positivity
  refine ⟨n - m, g, ?_, hg, by rw [e1, e2]; push_cast; ring⟩
  have i1 : m ≤ n := by
    rw [e1, e2] at h1
    exact_mod_cast le_of_mul_le_mul_right h1 p
  have i2 : n ≤ 2 * m := by
    rw [e1, e2, ← mul_assoc] at h2
    exact_mod_cast le_of_mul_le_mul_right h2 p
  rw [abs_of_nonneg (by omega)]
  rcases hb with hb | hb
  · have := le_abs_self m; omega
  · have := le_abs_self n; omega

/-- Half of a number that is not tiny is exact. -/
theorem binary64_halve {x : ℚ} (hx : Binary64 x) (h : x = 0 ∨ (2 : ℚ) ^ (-1021 : Int) ≤ |x|) : Binary64 (x / 2) := by
  rcases h with rfl | h
  · rw [zero_div]; exact binary64_zero
  obtain ⟨m, e, hm, he, rfl⟩ := hx
  by_cases h' : e = -1074
  · subst h'
    -- `|m| = 2^53`
    have p : (0 : ℚ) < 2 ^ (-1074 : Int) := by positivity
    have hm' : |(m : ℚ)| ≤ 2 ^ 53 := by exact_mod_cast hm
    rw [abs_mul, abs_of_pos p] at h
    have e1 : (2 : ℚ) ^ (-1021 : Int) = 2 ^ 53 * 2 ^ (-1074 : Int) := by
      rw [← zpow_natCast, ← zpow_add₀ (by norm_num)]; norm_num
    rw [e1] at h
    have := le_of_mul_le_mul_right h p
    have he : |(m : ℚ)| = 2 ^ 53 := le_antisymm hm' this
    have he' : |m| = 2 ^ 53 := by exact_mod_cast he
    have h2 : ∃ k : Int, m = 2 * k ∧ |k| ≤ 2 ^ 53 := by
      rcases (abs_eq (by norm_num)).mp he' with h | h
      · exact ⟨2 ^ 52, by rw [h]; norm_num, by norm_num⟩
      · exact ⟨-2 ^ 52, by rw [h]; norm_num, by norm_num⟩
    obtain ⟨k, rfl, hk⟩ := h2
    exact ⟨k, -1074, hk, by norm_num, by push_cast; ring⟩
  · refine ⟨m, e - 1, hm, by omega, ?_⟩
    rw [zpow_sub_one₀ (by norm_num)]
    ring

/-- The exponent is determined. -/
theorem ilog2_unique {q : ℚ} (hq : q ≠ 0) {l : Int} (h1 : (2 : ℚ) ^ l ≤ |q|) (h2 : |q| < (2 : ℚ) ^ (l + 1)) : ilog2 q = l := by
  obtain ⟨a1, a2⟩ := ilog2_spec hq
  have u1 := (zpow_lt_zpow_iff_right₀ (by norm_num : (1 : ℚ) < 2)).mp (h1.trans_lt a2)
  have u2 := (zpow_lt_zpow_iff_right₀ (by norm_num : (1 : ℚ) < 2)).mp (a1.trans_lt h2)
  omega

/-- Rounding commutes with doubling, except for tiny numbers. -/
theorem rnd_double {q : ℚ} (h : (2 : ℚ) ^ (-1022 : Int) ≤ |q|) : rnd (2 * q) = 2 * rnd q := by
  have hq : q ≠ 0 := by
    rintro rfl
    rw [abs_zero] at h
    exact absurd h (not_le.mpr (by positivity))
  have hq2 : 2 * q ≠ 0 := mul_ne_zero (by norm_num) hq
  obtain ⟨a1, a2⟩ := ilog2_spec hq
  have two : |2 * q| = 2 * |q| := by rw [abs_mul]; norm_num
  have hl : ilog2 (2 * q) = ilog2 q + 1 := by
    refine ilog2_unique hq2 ?_ ?_
    · rw [two, zpow_add_one₀ (by norm_num)]; linarith
    · rw [two, zpow_add_one₀ (by norm_num)]; linarith
  have hge : -1022 ≤ ilog2 q := by
    have := (zpow_lt_zpow_iff_right₀ (by norm_num : (1 : ℚ) < 2)).mp (h.trans_lt a2)
    omega
  have he : expOf (2 * q) = expOf q + 1 := by
    unfold expOf expTo
    rw [hl, max_eq_left (by omega), max_eq_left (by omega)]
    omega
  rw [rnd_eq hq, rnd_eq hq2, he, zpow_add_one₀ (by norm_num)]
  have p : (0 : ℚ) < 2 ^ expOf q := by positivity
  have : 2 * q / (2 ^ expOf q * 2) = q / 2 ^ expOf q := by field_simp
  rw [this]
  ring

end F64
end StlDice
