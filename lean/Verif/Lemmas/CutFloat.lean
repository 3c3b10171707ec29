import Verif.Lemmas.Float64
import Verif.Lemmas.FloatError
import Verif.Spec.VoxelizeFloat

/-! # Cutting an edge with a plane in float64 -/

namespace StlDice
open Spec GoFloat BinVOX F64

namespace F64

theorem tiny_le {q : ℚ} (h : 1 / 2 ^ 100 ≤ q) : (2 : ℚ) ^ (-1075 : Int) ≤ q := by
  refine le_trans ?_ h
  rw [one_div, ← zpow_natCast, ← zpow_neg]
  exact zpow_le_zpow_right₀ (by norm_num) (by norm_num)

theorem rnd_le_of {q r : ℚ} (h : q ≤ r) (hr : Binary64 r) : rnd q ≤ r := by
  have := rnd_mono h
  rwa [rnd_of_mem hr] at this

theorem le_rnd_of {q r : ℚ} (h : r ≤ q) (hr : Binary64 r) : r ≤ rnd q := by
  have := rnd_mono h
  rwa [rnd_of_mem hr] at this

/-- The whole part of a float64 is one. -/
theorem binary64_floor {z : ℚ} (h : Binary64 z) : Binary64 ((z.floor : Int) : ℚ) := by
  by_cases hz : |z| ≤ 2 ^ 53
  · apply binary64_int
    obtain ⟨h1, h2⟩ := abs_le.mp hz
    rw [abs_le]
    constructor
    · have : ((-2 ^ 53 : Int) : ℚ) ≤ z := by push_cast; exact h1
      exact Rat.le_floor_iff.mpr this
    · have h3 : ((z.floor : Int) : ℚ) ≤ z := Rat.floor_le z
      have : ((z.floor : Int) : ℚ) ≤ ((2 ^ 53 : Int) : ℚ) := by push_cast; linarith
      exact_mod_cast this
  · obtain ⟨m, e, hm, he, rfl⟩ := h
    have he0 : 0 ≤ e := by
      by_contra hc
      push Not at hc hz
      rw [abs_mul, abs_of_pos (by positivity : (0 : ℚ) < 2 ^ e)] at hz
      have h1 : |(m : ℚ)| ≤ 2 ^ 53 := by
        have : ((|m| : Int) : ℚ) ≤ ((2 ^ 53 : Int) : ℚ) := by exact_mod_cast hm
        push_cast at this
        exact this
      have h2 : (2 : ℚ) ^ e ≤ 1 := zpow_le_one_of_nonpos₀ (by norm_num) hc.le
      have := mul_le_mul h1 h2 (by positivity) (by positivity)
      linarith
    obtain ⟨k, rfl⟩ := Int.eq_ofNat_of_zero_le he0
    have : (m : ℚ) * 2 ^ (k : Int) = ((m * 2 ^ k : Int) : ℚ) := by push_cast [zpow_natCast]; ring
    rw [this, Rat.floor_intCast, ← this]
    exact ⟨m, k, hm, he, rfl⟩

/-- The quotient of the cut, for an edge going up. -/
theorem ratio_up {R dz d' n0 n' : ℚ} (hR : 0 < R) (hdz : 0 < dz) (hdR : dz ≤ 2 * R)
    (hd : |d' - dz| ≤ dz / 2 ^ 53) (hn : |n' - n0| ≤ 3 / 4 * (R / 2 ^ 45)) :
    (n0 < -(2 * (R / 2 ^ 45)) → rnd (n' / d') < 0) ∧ (dz + 2 * (R / 2 ^ 45) < n0 → 1 < rnd (n' / d')) ∧
    (2 * (R / 2 ^ 45) < n0 → n0 < dz - 2 * (R / 2 ^ 45) →
      0 ≤ rnd (n' / d') ∧ rnd (n' / d') ≤ 1 ∧ |rnd (n' / d') - n0 / dz| ≤ R / 2 ^ 45 / dz) := by
  obtain ⟨d1, d2⟩ := abs_le.mp hd
  obtain ⟨n1, n2⟩ := abs_le.mp hn
  have dpos : 0 < d' := by
    have : dz / 2 ^ 53 ≤ dz / 2 := div_le_div_of_nonneg_left hdz.le (by norm_num) (by norm_num)
    linarith
  have dle : d' ≤ 4 * R := by
    have : dz / 2 ^ 53 ≤ dz / 2 := div_le_div_of_nonneg_left hdz.le (by norm_num) (by norm_num)
    linarith
  have dzU : dz / 2 ^ 53 ≤ R / 2 ^ 52 := by
    have := div_le_div_of_nonneg_right hdR (by norm_num : (0 : ℚ) ≤ 2 ^ 53)
    linarith
  have RU : R / 2 ^ 52 = R / 2 ^ 45 / 128 := by ring
  have quarter : R / 2 ^ 45 / (4 * R) = 1 / 2 ^ 47 := by field_simp; norm_num
  have η0 : 0 < R / 2 ^ 45 := by positivity
  refine ⟨fun h => ?_, fun h => ?_, fun h h' => ?_⟩
  · have q : n' / d' ≤ -(1 / 2 ^ 47) := by
      rw [div_le_iff₀ dpos]
      have : 1 / 2 ^ 47 * d' ≤ 1 / 2 ^ 47 * (4 * R) := mul_le_mul_of_nonneg_left dle (by norm_num)
      have e : 1 / 2 ^ 47 * (4 * R) = R / 2 ^ 45 := by ring
      linarith
    have := rnd_le_of q ⟨-1, -47, by norm_num, by norm_num, by norm_num⟩
    have : -(1 / 2 ^ 47 : ℚ) < 0 := by norm_num
    linarith
  · have q : 1 + 1 / 2 ^ 47 ≤ n' / d' := by
      rw [le_div_iff₀ dpos]
      have : 1 / 2 ^ 47 * d' ≤ 1 / 2 ^ 47 * (4 * R) := mul_le_mul_of_nonneg_left dle (by norm_num)
      have e : 1 / 2 ^ 47 * (4 * R) = R / 2 ^ 45 := by ring
      rw [add_mul, one_mul]
      linarith
    have := le_rnd_of q ⟨2 ^ 47 + 1, -47, by norm_num, by norm_num, by norm_num⟩
    have : (0 : ℚ) < 1 / 2 ^ 47 := by norm_num
    linarith
  · have q0 : 0 ≤ n' / d' := div_nonneg (by linarith) dpos.le
    have q1 : n' / d' ≤ 1 := by rw [div_le_one dpos]; linarith
    have one : Binary64 1 := ⟨1, 0, by norm_num, by norm_num, by norm_num⟩
    refine ⟨rnd_nonneg q0, rnd_le_of q1 one, ?_⟩
    have r := rnd_error_abs (n' / d')
    rw [abs_of_nonneg q0] at r
    have tiny := tiny_le (q := 1 / 2 ^ 53) (by norm_num)
    have r1 : |rnd (n' / d') - n' / d'| ≤ 2 / 2 ^ 53 := by
      have : n' / d' / 2 ^ 53 ≤ 1 / 2 ^ 53 := div_le_div_of_nonneg_right q1 (by norm_num)
      have e : (2 / 2 ^ 53 : ℚ) = 1 / 2 ^ 53 + 1 / 2 ^ 53 := by norm_num
      rw [e]
      linarith
    -- how large η / dz is
    have big : 1 / 2 ^ 46 ≤ R / 2 ^ 45 / dz := by
      rw [le_div_iff₀ hdz]
      have := mul_le_mul_of_nonneg_left hdR (by norm_num : (0 : ℚ) ≤ 1 / 2 ^ 46)
      have e : 1 / 2 ^ 46 * (2 * R) = R / 2 ^ 45 := by ring
      linarith
    have d3 : |1 - d' / dz| ≤ 1 / 2 ^ 53 := by
      have : 1 - d' / dz = -((d' - dz) / dz) := by field_simp; ring
      rw [this, abs_neg, abs_div, abs_of_pos hdz, div_le_iff₀ hdz]
      linarith
    have split : n' / d' - n0 / dz = (n' - n0) / dz + n' / d' * (1 - d' / dz) := by
      field_simp
      ring
    have b1 : |(n' - n0) / dz| ≤ 3 / 4 * (R / 2 ^ 45 / dz) := by
      rw [abs_div, abs_of_pos hdz]
      have := div_le_div_of_nonneg_right hn hdz.le
      have e : 3 / 4 * (R / 2 ^ 45) / dz = 3 / 4 * (R / 2 ^ 45 / dz) := by ring
      linarith
    have b2 : |n' / d' * (1 - d' / dz)| ≤ 1 / 2 ^ 53 := by
      rw [abs_mul, abs_of_nonneg q0]
      have := mul_le_mul q1 d3 (abs_nonneg _) (by norm_num)
      linarith
    have b3 : |n' / d' - n0 / dz| ≤ 3 / 4 * (R / 2 ^ 45 / dz) + 1 / 2 ^ 53 := by
      rw [split]
      exact (abs_add_le _ _).trans (add_le_add b1 b2)
    have tri := abs_sub_le (rnd (n' / d')) (n' / d') (n0 / dz)
    generalize R / 2 ^ 45 / dz = ρ at *
    have : (3 : ℚ) / 2 ^ 53 ≤ 1 / 4 * (1 / 2 ^ 46) := by norm_num
    have e : (2 / 2 ^ 53 : ℚ) + 1 / 2 ^ 53 = 3 / 2 ^ 53 := by norm_num
    linarith

/-- The quotient of the cut. -/
theorem ratio {R dz d' n0 n' : ℚ} (hR : 0 < R) (hdz : dz ≠ 0) (hdR : |dz| ≤ 2 * R)
    (hd : |d' - dz| ≤ |dz| / 2 ^ 53) (hn : |n' - n0| ≤ 3 / 4 * (R / 2 ^ 45))
    (m0 : 2 * (R / 2 ^ 45) < |n0|) (m1 : 2 * (R / 2 ^ 45) < |n0 - dz|) :
    (n0 / dz < 0 → rnd (n' / d') < 0) ∧ (1 < n0 / dz → 1 < rnd (n' / d')) ∧
    (0 ≤ n0 / dz → n0 / dz ≤ 1 →
      0 ≤ rnd (n' / d') ∧ rnd (n' / d') ≤ 1 ∧ |rnd (n' / d') - n0 / dz| ≤ R / 2 ^ 45 / |dz|) := by
  have η0 : 0 < R / 2 ^ 45 := by positivity
  have main : ∀ {dz d' n0 n' : ℚ}, 0 < dz → dz ≤ 2 * R → |d' - dz| ≤ dz / 2 ^ 53 → |n' - n0| ≤ 3 / 4 * (R / 2 ^ 45) →
      2 * (R / 2 ^ 45) < |n0| → 2 * (R / 2 ^ 45) < |n0 - dz| →
      (n0 / dz < 0 → rnd (n' / d') < 0) ∧ (1 < n0 / dz → 1 < rnd (n' / d')) ∧
      (0 ≤ n0 / dz → n0 / dz ≤ 1 →
        0 ≤ rnd (n' / d') ∧ rnd (n' / d') ≤ 1 ∧ |rnd (n' / d') - n0 / dz| ≤ R / 2 ^ 45 / dz) := by
    intro dz d' n0 n' hp hdR hd hn m0 m1
    obtain ⟨r1, r2, r3⟩ := ratio_up hR hp hdR hd hn
    refine ⟨fun h => r1 ?_, fun h => r2 ?_, fun h h' => r3 ?_ ?_⟩
    · rw [div_lt_iff₀ hp, zero_mul] at h
      rw [abs_of_neg h] at m0; linarith
    · rw [lt_div_iff₀ hp, one_mul] at h
      rw [abs_of_pos (by linarith)] at m1; linarith
    · rw [le_div_iff₀ hp, zero_mul] at h
      rwa [abs_of_nonneg h] at m0
    · rw [div_le_iff₀ hp, one_mul] at h'
      rw [abs_of_nonpos (by linarith)] at m1; linarith
  rcases lt_or_gt_of_ne hdz with h | h
  · rw [abs_of_neg h] at hd hdR ⊢
    have := main (dz := -dz) (d' := -d') (n0 := -n0) (n' := -n') (by linarith) hdR
      (by rw [← abs_neg]; convert hd using 2; ring) (by rw [← abs_neg]; convert hn using 2; ring)
      (by rwa [abs_neg]) (by rw [← abs_neg]; convert m1 using 2; ring)
    rwa [neg_div_neg_eq, neg_div_neg_eq] at this
  · rw [abs_of_pos h] at hd hdR ⊢
    exact main h hdR hd hn m0 m1

/-- A coordinate of the cut point. -/
theorem point_error {R x0 x1 t0 t' ρ : ℚ} (hR : 1 / 2 ^ 40 ≤ R) (b0 : Binary64 x0) (h0 : |x0| ≤ R) (b1 : Binary64 x1)
    (h1 : |x1| ≤ R) (ht0 : 0 ≤ t') (ht1 : t' ≤ 1) (ht : |t' - t0| ≤ ρ) :
    |rnd (x0 + rnd (rnd (x1 - x0) * t')) - (x0 + (x1 - x0) * t0)| ≤ |x1 - x0| * ρ + R / 2 ^ 48 := by
  have R0 : 0 < R := lt_of_lt_of_le (by norm_num) hR
  have e1 : |rnd (x1 - x0) - (x1 - x0)| ≤ |x1 - x0| / 2 ^ 53 := by
    have := add_error b1 (binary64_neg b0)
    rwa [← sub_eq_add_neg] at this
  have d2 : |x1 - x0| ≤ 2 * R := by
    have := abs_sub x1 x0
    linarith
  set u' := rnd (x1 - x0) with hu
  set u := x1 - x0 with hu0
  have u0 := abs_nonneg u
  have u'b : |u'| ≤ 3 * R := by
    have : |u'| ≤ |u' - u| + |u| := by
      have := abs_add_le (u' - u) u
      rwa [sub_add_cancel] at this
    have : |u| / 2 ^ 53 ≤ |u| / 2 := div_le_div_of_nonneg_left u0 (by norm_num) (by norm_num)
    linarith
  have p1 : |u' * t'| ≤ 3 * R := by
    rw [abs_mul, abs_of_nonneg ht0]
    have := mul_le_mul u'b ht1 ht0 (by linarith)
    linarith
  have e2 := rnd_error_abs (u' * t')
  have tiny := tiny_le (q := R / 2 ^ 53) (by
    rw [le_div_iff₀ (by norm_num)]
    refine le_trans (by norm_num) hR)
  have e2' : |rnd (u' * t') - u' * t'| ≤ 4 * (R / 2 ^ 53) := by
    have := div_le_div_of_nonneg_right p1 (by norm_num : (0 : ℚ) ≤ 2 ^ 53)
    have e : 3 * R / 2 ^ 53 = 3 * (R / 2 ^ 53) := by ring
    linarith
  have e3 := add_error b0 (rnd_mem (u' * t'))
  have RU : R / 2 ^ 53 ≤ R / 1000 := div_le_div_of_nonneg_left R0.le (by norm_num) (by norm_num)
  have p2 : |x0 + rnd (u' * t')| ≤ 5 * R := by
    have a := abs_add_le x0 (rnd (u' * t'))
    have b : |rnd (u' * t')| ≤ |rnd (u' * t') - u' * t'| + |u' * t'| := by
      have := abs_add_le (rnd (u' * t') - u' * t') (u' * t')
      rwa [sub_add_cancel] at this
    linarith
  have e3' : |rnd (x0 + rnd (u' * t')) - (x0 + rnd (u' * t'))| ≤ 5 * (R / 2 ^ 53) := by
    have := div_le_div_of_nonneg_right p2 (by norm_num : (0 : ℚ) ≤ 2 ^ 53)
    have e : 5 * R / 2 ^ 53 = 5 * (R / 2 ^ 53) := by ring
    linarith
  have e4 : |u' * t' - u * t0| ≤ 2 * (R / 2 ^ 53) + |u| * ρ := by
    have s : u' * t' - u * t0 = (u' - u) * t' + u * (t' - t0) := by ring
    rw [s]
    refine (abs_add_le _ _).trans ?_
    rw [abs_mul, abs_mul, abs_of_nonneg ht0]
    have a := mul_le_mul e1 ht1 ht0 (by positivity)
    have b := mul_le_mul_of_nonneg_left ht u0
    have c := div_le_div_of_nonneg_right d2 (by norm_num : (0 : ℚ) ≤ 2 ^ 53)
    have e : 2 * R / 2 ^ 53 = 2 * (R / 2 ^ 53) := by ring
    linarith
  have s : rnd (x0 + rnd (u' * t')) - (x0 + u * t0) = (rnd (x0 + rnd (u' * t')) - (x0 + rnd (u' * t'))) +
      ((rnd (u' * t') - u' * t') + (u' * t' - u * t0)) := by ring
  rw [s]
  have a := abs_add_le (rnd (x0 + rnd (u' * t')) - (x0 + rnd (u' * t'))) ((rnd (u' * t') - u' * t') + (u' * t' - u * t0))
  have b := abs_add_le (rnd (u' * t') - u' * t') (u' * t' - u * t0)
  have e : R / 2 ^ 48 = 32 * (R / 2 ^ 53) := by ring
  have : 0 < R / 2 ^ 53 := by positivity
  rw [e]
  linarith

/-- The grid coordinate before it is cut off. -/
theorem grid_error {R V v' X0 X' T T' s : ℚ} (hR : 1 / 2 ^ 40 ≤ R) (hV : (2 : ℚ) ^ (-900 : Int) ≤ V) (hs : 1 ≤ s)
    (hv : |v' - V| ≤ V / 2 ^ 50) (bX : Binary64 X') (hX0 : |X0| ≤ R) (hX : |X' - X0| ≤ s * (R / 2 ^ 45))
    (bT : Binary64 T') (hT0 : |T| ≤ R) (hT : |T' - T| ≤ R / 2 ^ 48) :
    |rnd (v' * rnd (X' - T')) - V * (X0 - T)| ≤ V * (4 * s * (R / 2 ^ 45)) := by
  have R0 : 0 < R := lt_of_lt_of_le (by norm_num) hR
  have V0 : 0 < V := lt_of_lt_of_le (by positivity) hV
  have e1 : |rnd (X' - T') - (X' - T')| ≤ |X' - T'| / 2 ^ 53 := by
    have := add_error bX (binary64_neg bT)
    rwa [← sub_eq_add_neg] at this
  have tiny : (2 : ℚ) ^ (-1075 : Int) ≤ V * (s * (R / 2 ^ 45) / 16) := by
    have a : (2 : ℚ) ^ (-1075 : Int) ≤ 2 ^ (-900 : Int) * (1 / 2 ^ 100) := by
      rw [one_div, ← zpow_natCast, ← zpow_neg, ← zpow_add₀ (by norm_num)]
      exact zpow_le_zpow_right₀ (by norm_num) (by norm_num)
    refine a.trans (mul_le_mul hV ?_ (by norm_num) V0.le)
    have : R / 2 ^ 45 ≤ s * (R / 2 ^ 45) := le_mul_of_one_le_left (by positivity) hs
    have b : (1 / 2 ^ 40) / 2 ^ 45 ≤ R / 2 ^ 45 := div_le_div_of_nonneg_right hR (by norm_num)
    have c : (1 / 2 ^ 100 : ℚ) ≤ 1 / 2 ^ 40 / 2 ^ 45 / 16 := by norm_num
    linarith
  set η := s * (R / 2 ^ 45) with hη
  have η1 : R / 2 ^ 45 ≤ η := le_mul_of_one_le_left (by positivity) hs
  have η0 : 0 < η := lt_of_lt_of_le (by positivity) η1
  have r48 : R / 2 ^ 48 = R / 2 ^ 45 / 8 := by ring
  have d1 : |X' - T' - (X0 - T)| ≤ 9 / 8 * η := by
    have a := abs_sub (X' - X0) (T' - T)
    have e : X' - X0 - (T' - T) = X' - T' - (X0 - T) := by ring
    rw [e] at a
    linarith
  have D : |X0 - T| ≤ 2 * R := by
    have := abs_sub X0 T
    linarith
  have d2 : |X' - T'| ≤ 2 * R + 9 / 8 * η := by
    have : |X' - T'| ≤ |X' - T' - (X0 - T)| + |X0 - T| := by
      have := abs_add_le (X' - T' - (X0 - T)) (X0 - T)
      rwa [sub_add_cancel] at this
    linarith
  have RU : R / 2 ^ 53 = R / 2 ^ 45 / 256 := by ring
  have ηU : η / 2 ^ 53 ≤ η / 1024 := div_le_div_of_nonneg_left η0.le (by norm_num) (by norm_num)
  have d3 : |rnd (X' - T') - (X0 - T)| ≤ 5 / 4 * η := by
    have a := abs_sub_le (rnd (X' - T')) (X' - T') (X0 - T)
    have b := div_le_div_of_nonneg_right d2 (by norm_num : (0 : ℚ) ≤ 2 ^ 53)
    have e : (2 * R + 9 / 8 * η) / 2 ^ 53 = 2 * (R / 2 ^ 53) + 9 / 8 * (η / 2 ^ 53) := by ring
    linarith
  set δ := rnd (X' - T') with hδ
  have vb : |v'| ≤ 33 / 32 * V := by
    have : |v'| ≤ |v' - V| + |V| := by
      have := abs_add_le (v' - V) V
      rwa [sub_add_cancel] at this
    rw [abs_of_pos V0] at this
    have : V / 2 ^ 50 ≤ V / 32 := div_le_div_of_nonneg_left V0.le (by norm_num) (by norm_num)
    linarith
  have d4 : |v' * δ - V * (X0 - T)| ≤ V * (3 / 2 * η) := by
    have s : v' * δ - V * (X0 - T) = v' * (δ - (X0 - T)) + (v' - V) * (X0 - T) := by ring
    rw [s]
    refine (abs_add_le _ _).trans ?_
    rw [abs_mul, abs_mul]
    have a := mul_le_mul vb d3 (abs_nonneg _) (by positivity)
    have b := mul_le_mul hv D (abs_nonneg _) (by positivity)
    have c : V / 2 ^ 50 * (2 * R) = V * (R / 2 ^ 45 / 16) := by ring
    have d := mul_le_mul_of_nonneg_left η1 V0.le
    have e : 33 / 32 * V * (5 / 4 * η) = 165 / 128 * (V * η) := by ring
    have f : V * (3 / 2 * η) = 3 / 2 * (V * η) := by ring
    have g : V * (R / 2 ^ 45 / 16) = V * (R / 2 ^ 45) / 16 := by ring
    have h : 0 < V * η := mul_pos V0 η0
    linarith
  have e5 := rnd_error_abs (v' * δ)
  have d5 : |v' * δ| ≤ V * (2 * R) + V * (3 / 2 * η) := by
    have : |v' * δ| ≤ |v' * δ - V * (X0 - T)| + |V * (X0 - T)| := by
      have := abs_add_le (v' * δ - V * (X0 - T)) (V * (X0 - T))
      rwa [sub_add_cancel] at this
    rw [abs_mul V, abs_of_pos V0] at this
    have := mul_le_mul_of_nonneg_left D V0.le
    linarith
  have d6 : |v' * δ| / 2 ^ 53 ≤ V * η / 64 := by
    have a := div_le_div_of_nonneg_right d5 (by norm_num : (0 : ℚ) ≤ 2 ^ 53)
    have b : (V * (2 * R) + V * (3 / 2 * η)) / 2 ^ 53 = 2 * (V * (R / 2 ^ 45)) / 256 + 3 / 2 * (V * η) / 2 ^ 53 := by ring
    have c := mul_le_mul_of_nonneg_left η1 V0.le
    have h : 0 < V * η := mul_pos V0 η0
    have i : 3 / 2 * (V * η) / 2 ^ 53 ≤ 3 / 2 * (V * η) / 1024 :=
      div_le_div_of_nonneg_left (by positivity) (by norm_num) (by norm_num)
    linarith
  have tri := abs_sub_le (rnd (v' * δ)) (v' * δ) (V * (X0 - T))
  have h : 0 < V * η := mul_pos V0 η0
  have t2 : V * (η / 16) = V * η / 16 := by ring
  have t3 : V * (4 * s * (R / 2 ^ 45)) = 4 * (V * η) := by rw [hη]; ring
  have t4 : V * (3 / 2 * η) = 3 / 2 * (V * η) := by ring
  rw [t3]
  linarith

/-- Cutting off gives the same as without errors, away from the borders. -/
theorem floor_same {d g z : ℚ} (h : OffBorder d g) (hz : |z - g| ≤ d) : ⌊z⌋ = ⌊g⌋ := by
  rw [Int.floor_eq_iff]
  obtain ⟨h1, h2⟩ := abs_le.mp hz
  have f1 := Int.floor_le g
  have f2 := Int.lt_floor_add_one g
  have o1 := h ⌊g⌋
  have o2 := h (⌊g⌋ + 1)
  rw [abs_of_nonneg (by linarith)] at o1
  push_cast at o2
  rw [abs_of_nonpos (by linarith)] at o2
  constructor <;> linarith

end F64
end StlDice
