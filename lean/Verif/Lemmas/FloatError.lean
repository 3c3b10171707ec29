import Verif.Model.Float32
import Verif.Spec.Float64

/-! # How far float64 positions are from the exact ones -/

namespace StlDice
namespace F64
open Spec

/-- `s * mmpv + t` with `mmpv = 1/v`, each operation rounded. -/
def place64 (v t s : ℚ) : ℚ := rnd (rnd (s * rnd (1 / v)) + t)

theorem coord64_place (v t : ℚ) (c : Int) : coord64 v t c = place64 v t ((c : ℚ) + 1 / 2) := rfl

theorem place64_mem (v t s : ℚ) : Binary64 (place64 v t s) := rnd_mem _

/-- Each quotient and product is off by at most `2^-53` of itself. -/
theorem prod_error' {τ v0 v s : ℚ} (hτ : 0 < τ) (hτ2 : (2 : ℚ) ^ (-1022 : Int) ≤ τ / 4) (h1 : τ ≤ v0) (h2 : τ * v0 ≤ 1)
    (hv : v = rnd v0) (hs : s = 0 ∨ 1 / 2 ≤ |s|) :
    |rnd (s * rnd (1 / v)) - s / v0| ≤ 4 / 2 ^ 53 * |s / v0| := by
  have v0pos : 0 < v0 := hτ.trans_le h1
  have dv : |v - v0| ≤ v0 / 2 ^ 53 := by
    have := rnd_error (q := v0) (by
      rw [abs_of_pos v0pos]; linarith)
    rwa [abs_of_pos v0pos, ← hv] at this
  obtain ⟨dv1, dv2⟩ := abs_le.mp dv
  have u1 : v0 / 2 ^ 53 ≤ v0 / 1000 := by
    apply div_le_div_of_nonneg_left v0pos.le (by norm_num) (by norm_num)
  have vlo : 999 / 1000 * v0 ≤ v := by linarith
  have vhi : v ≤ 1001 / 1000 * v0 := by linarith
  have vpos : 0 < v := by linarith
  have recip : |rnd (1 / v) - 1 / v| ≤ 1 / v / 2 ^ 53 := by
    have := rnd_error (q := 1 / v) (by
      rw [abs_of_pos (by positivity)]
      refine hτ2.trans ?_
      rw [le_div_iff₀ vpos]
      nlinarith [mul_nonneg hτ.le (sub_nonneg.mpr vhi)])
    rwa [abs_of_pos (by positivity : 0 < 1 / v)] at this
  have inv0 : |1 / v - 1 / v0| ≤ 1 / v / 2 ^ 53 := by
    have : 1 / v - 1 / v0 = -(v - v0) / (v * v0) := by
      have := vpos.ne'
      have := v0pos.ne'
      field_simp
      ring
    rw [this, abs_div, abs_neg, abs_of_pos (by positivity : 0 < v * v0), div_le_iff₀ (by positivity)]
    calc |v - v0| ≤ v0 / 2 ^ 53 := dv
      _ = 1 / v / 2 ^ 53 * (v * v0) := by field_simp
  have invv : 1 / v ≤ 1002 / 1000 * (1 / v0) := by
    rw [mul_one_div, div_le_div_iff₀ vpos v0pos]
    nlinarith
  set m := rnd (1 / v) with hm
  have iv0 : (0 : ℚ) < 1 / v0 := by positivity
  have dm : |m - 1 / v0| ≤ (2 * (1002 / 1000) / 2 ^ 53) * (1 / v0) := by
    have : m - 1 / v0 = (m - 1 / v) + (1 / v - 1 / v0) := by ring
    rw [this]
    refine (abs_add_le _ _).trans ?_
    have : 1 / v / 2 ^ 53 ≤ 1002 / 1000 * (1 / v0) / 2 ^ 53 := div_le_div_of_nonneg_right invv (by positivity)
    calc _ ≤ 1 / v / 2 ^ 53 + 1 / v / 2 ^ 53 := add_le_add recip inv0
      _ ≤ 1002 / 1000 * (1 / v0) / 2 ^ 53 + 1002 / 1000 * (1 / v0) / 2 ^ 53 := add_le_add this this
      _ = _ := by ring
  obtain ⟨dm1, dm2⟩ := abs_le.mp dm
  have c1 : (2 * (1002 / 1000) / 2 ^ 53 : ℚ) ≤ 1 / 1000 := by norm_num
  have mhi : m ≤ 1001 / 1000 * (1 / v0) := by nlinarith
  have mlo : 999 / 1000 * (1 / v0) ≤ m := by nlinarith
  have mpos : 0 < m := by linarith
  rcases hs with rfl | hs
  · rw [zero_mul, rnd_zero, zero_div, sub_zero, abs_zero, mul_zero]
  · have prod : |rnd (s * m) - s * m| ≤ |s * m| / 2 ^ 53 := by
      refine rnd_error ?_
      rw [abs_mul, abs_of_pos mpos]
      refine hτ2.trans ?_
      have h5 : τ ≤ 1 / v0 := by rw [le_div_iff₀ v0pos]; exact h2
      have h6 : 1 / 2 * m ≤ |s| * m := mul_le_mul_of_nonneg_right hs mpos.le
      linarith
    have split : rnd (s * m) - s / v0 = (rnd (s * m) - s * m) + s * (m - 1 / v0) := by ring
    rw [split]
    refine (abs_add_le _ _).trans ?_
    rw [abs_mul s m, abs_of_pos mpos] at prod
    rw [abs_mul s]
    have sa : |s / v0| = |s| * (1 / v0) := by rw [abs_div, abs_of_pos v0pos]; ring
    rw [sa]
    have snn := abs_nonneg s
    have t1 : |s| * m / 2 ^ 53 ≤ |s| * (1001 / 1000 * (1 / v0)) / 2 ^ 53 :=
      div_le_div_of_nonneg_right (mul_le_mul_of_nonneg_left mhi snn) (by positivity)
    have t2 : |s| * |m - 1 / v0| ≤ |s| * ((2 * (1002 / 1000) / 2 ^ 53) * (1 / v0)) := mul_le_mul_of_nonneg_left dm snn
    calc _ ≤ |s| * (1001 / 1000 * (1 / v0)) / 2 ^ 53 + |s| * ((2 * (1002 / 1000) / 2 ^ 53) * (1 / v0)) :=
          add_le_add (prod.trans t1) t2
      _ = (|s| * (1 / v0)) * (3005 / 1000 / 2 ^ 53) := by ring
      _ ≤ (|s| * (1 / v0)) * (4 / 2 ^ 53) := mul_le_mul_of_nonneg_left (by norm_num) (by positivity)
      _ = _ := by ring

theorem tau_ok {v0 : ℚ} (h2 : v0 ≤ 2 ^ (900 : Int)) :
    (0 : ℚ) < 2 ^ (-900 : Int) ∧ (2 : ℚ) ^ (-1022 : Int) ≤ 2 ^ (-900 : Int) / 4 ∧ (2 : ℚ) ^ (-900 : Int) * v0 ≤ 1 := by
  have p : (0 : ℚ) < 2 ^ (-900 : Int) := by positivity
  refine ⟨p, ?_, ?_⟩
  · rw [le_div_iff₀ (by norm_num), show (4 : ℚ) = 2 ^ (2 : Int) by norm_num, ← zpow_add₀ (by norm_num)]
    exact zpow_le_zpow_right₀ (by norm_num) (by norm_num)
  · have e : (2 : ℚ) ^ (-900 : Int) * 2 ^ (900 : Int) = 1 := by
      rw [← zpow_add₀ (by norm_num), show (-900 + 900 : Int) = 0 by norm_num, zpow_zero]
    rw [← e]
    exact mul_le_mul_of_nonneg_left h2 p.le

theorem prod_error {v0 v s : ℚ} (h1 : (2 : ℚ) ^ (-900 : Int) ≤ v0) (h2 : v0 ≤ 2 ^ (900 : Int)) (hv : v = rnd v0)
    (hs : s = 0 ∨ 1 / 2 ≤ |s|) : |rnd (s * rnd (1 / v)) - s / v0| ≤ 4 / 2 ^ 53 * |s / v0| := by
  obtain ⟨t1, t2, t3⟩ := tau_ok h2
  exact prod_error' t1 t2 h1 t3 hv hs

/-- A position computed in float64 is off by at most `2^-50` of the size of the numbers involved. -/
theorem place_error {v0 v t s : ℚ} (h1 : (2 : ℚ) ^ (-900 : Int) ≤ v0) (h2 : v0 ≤ 2 ^ (900 : Int)) (hv : v = rnd v0)
    (ht : Binary64 t) (hs : s = 0 ∨ 1 / 2 ≤ |s|) :
    |place64 v t s - (s / v0 + t)| ≤ (|s / v0| + |t|) / 2 ^ 50 := by
  have hp := prod_error h1 h2 hv hs
  unfold place64
  generalize hq : rnd (s * rnd (1 / v)) = p at *
  have pm : Binary64 p := hq ▸ rnd_mem _
  have ha := add_error pm ht
  generalize s / v0 = a at *
  have split : rnd (p + t) - (a + t) = (rnd (p + t) - (p + t)) + (p - a) := by ring
  rw [split]
  refine (abs_add_le _ _).trans ?_
  have pa : |p| ≤ |a| + 4 / 2 ^ 53 * |a| := by
    have : p = a + (p - a) := by ring
    rw [this]
    exact (abs_add_le _ _).trans (by linarith)
  have sum := abs_add_le p t
  have a0 := abs_nonneg a
  have t0 := abs_nonneg t
  have : |p + t| / 2 ^ 53 ≤ (|a| + 4 / 2 ^ 53 * |a| + |t|) / 2 ^ 53 :=
    div_le_div_of_nonneg_right (by linarith) (by positivity)
  have fin : (|a| + 4 / 2 ^ 53 * |a| + |t|) / 2 ^ 53 + 4 / 2 ^ 53 * |a| ≤ (|a| + |t|) / 2 ^ 50 := by
    norm_num
    linarith
  linarith

/-- The error of any rounding. -/
theorem rnd_error_abs (q : ℚ) : |rnd q - q| ≤ |q| / 2 ^ 53 + 2 ^ (-1075 : Int) := by
  have p : (0 : ℚ) < 2 ^ (-1075 : Int) := by positivity
  have n : 0 ≤ |q| / 2 ^ 53 := by positivity
  by_cases h : (2 : ℚ) ^ (-1022 : Int) ≤ |q|
  · have := rnd_error h
    linarith
  · by_cases hq : q = 0
    · subst hq
      rw [rnd_zero, sub_self, abs_zero] at *
      linarith
    have h2 := rnd_error_ulp q
    obtain ⟨-, -, h3⟩ := expOf_spec hq
    push Not at h
    have he : expOf q = -1074 := by
      refine h3.resolve_right fun h4 => ?_
      have := (zpow_lt_zpow_iff_right₀ (by norm_num : (1 : ℚ) < 2)).mp (h4.trans_lt h)
      obtain ⟨h5, -, -⟩ := expOf_spec hq
      omega
    rw [he] at h2
    have : (-1074 - 1 : Int) = -1075 := by norm_num
    rw [this] at h2
    linarith

/-- Interpolating half-way between two float64. -/
theorem half_error {x y : ℚ} (hx : Binary64 x) (hy : Binary64 y) :
    |rnd (x + rnd (1 / 2 * rnd (y - x))) - (x + y) / 2| ≤ (|x| + |y|) / 2 ^ 51 + 2 ^ (-1074 : Int) := by
  have d0 : |rnd (y - x) - (y - x)| ≤ |y - x| / 2 ^ 53 := by
    have := add_error hy (binary64_neg hx)
    rwa [← sub_eq_add_neg] at this
  generalize rnd (y - x) = d at *
  have e0 := rnd_error_abs (1 / 2 * d)
  have em := rnd_mem (1 / 2 * d)
  generalize rnd (1 / 2 * d) = e at *
  have h0 := add_error hx em
  generalize rnd (x + e) = h at *
  have p74 : (2 : ℚ) ^ (-1074 : Int) = 2 * 2 ^ (-1075 : Int) := by
    rw [show (-1074 : Int) = -1075 + 1 by norm_num, zpow_add_one₀ (by norm_num), mul_comm]
  have tp : (0 : ℚ) < 2 ^ (-1075 : Int) := by positivity
  rw [p74]
  generalize (2 : ℚ) ^ (-1075 : Int) = τ at *
  have hM : |y - x| ≤ |x| + |y| := by
    have := abs_sub y x; linarith
  have hd : |d| ≤ |y - x| + |y - x| / 2 ^ 53 := by
    have : d = (y - x) + (d - (y - x)) := by ring
    rw [this]; exact (abs_add_le _ _).trans (by linarith)
  have half : |1 / 2 * d| = |d| / 2 := by rw [abs_mul]; norm_num; ring
  rw [half] at e0
  have he : |e| ≤ |d| / 2 + |d| / 2 / 2 ^ 53 + τ := by
    have : e = 1 / 2 * d + (e - 1 / 2 * d) := by ring
    rw [this]
    refine (abs_add_le _ _).trans ?_
    rw [half]; linarith
  have hs := abs_add_le x e
  have split : h - (x + y) / 2 = (h - (x + e)) + (e - 1 / 2 * d) + 1 / 2 * (d - (y - x)) := by ring
  rw [split]
  have a1 := abs_add_le ((h - (x + e)) + (e - 1 / 2 * d)) (1 / 2 * (d - (y - x)))
  have a2 := abs_add_le (h - (x + e)) (e - 1 / 2 * d)
  have a3 : |1 / 2 * (d - (y - x))| = |d - (y - x)| / 2 := by rw [abs_mul]; norm_num; ring
  rw [a3] at a1
  have x0 := abs_nonneg x
  have y0 := abs_nonneg y
  linarith

/-- A vertex between two adjacent centres. -/
theorem vertex_error {v0 v t : ℚ} (h1 : (2 : ℚ) ^ (-900 : Int) ≤ v0) (h2 : v0 ≤ 2 ^ (900 : Int)) (hv : v = rnd v0)
    (ht : Binary64 t) {c d : Int} (hcd : (c - d).natAbs ≤ 1) {x y : ℚ} (hx : x = coord64 v t c) (hy : y = coord64 v t d) :
    CloseAt v0 t ((((c : ℚ) + 1 / 2) / v0 + t + (((d : ℚ) + 1 / 2) / v0 + t)) / 2)
      (rnd (x + rnd (1 / 2 * rnd (y - x)))) := by
  have big : ∀ k : Int, (1 / 2 : ℚ) ≤ |(k : ℚ) + 1 / 2| := by
    intro k
    rcases (by omega : 0 ≤ k ∨ k ≤ -1) with h | h
    · have : (0 : ℚ) ≤ k := by exact_mod_cast h
      rw [abs_of_nonneg (by linarith)]; linarith
    · have : (k : ℚ) ≤ -1 := by exact_mod_cast h
      rw [abs_of_nonpos (by linarith)]; linarith
  have e1 := place_error h1 h2 hv ht (.inr (big c))
  have e2 := place_error h1 h2 hv ht (.inr (big d))
  rw [← coord64_place, ← hx] at e1
  rw [← coord64_place, ← hy] at e2
  have hm := half_error (hx ▸ rnd_mem _ : Binary64 x) (hy ▸ rnd_mem _ : Binary64 y)
  generalize rnd (x + rnd (1 / 2 * rnd (y - x))) = z at *
  clear hx hy
  have v0pos : 0 < v0 := lt_of_lt_of_le (by positivity) h1
  have iv : (2 : ℚ) ^ (-900 : Int) ≤ 1 / v0 := by
    rw [le_div_iff₀ v0pos]; exact (tau_ok h2).2.2
  have tiny : (2 : ℚ) ^ (-1074 : Int) ≤ 1 / v0 / 2 ^ 60 := by
    rw [le_div_iff₀ (by positivity)]
    refine le_trans ?_ iv
    rw [show ((2 : ℚ) ^ 60) = 2 ^ (60 : Int) from (zpow_ofNat 2 60).symm, ← zpow_add₀ (by norm_num)]
    exact zpow_le_zpow_right₀ (by norm_num) (by norm_num)
  clear h1 h2 iv
  generalize (2 : ℚ) ^ (-1074 : Int) = τ at *
  have near : |((c : ℚ) + 1 / 2) / v0 - ((d : ℚ) + 1 / 2) / v0| ≤ 1 / v0 := by
    rw [← sub_div, abs_div, abs_of_pos v0pos]
    apply div_le_div_of_nonneg_right _ v0pos.le
    have : (c : ℚ) + 1 / 2 - (d + 1 / 2) = ((c - d : Int) : ℚ) := by push_cast; ring
    rw [this, ← Int.cast_abs, Int.abs_eq_natAbs]
    exact_mod_cast hcd
  generalize ((c : ℚ) + 1 / 2) / v0 = a at *
  generalize ((d : ℚ) + 1 / 2) / v0 = b at *
  have w0 : 0 < 1 / v0 := by positivity
  unfold CloseAt
  generalize 1 / v0 = w at *
  have ep : (a + t + (b + t)) / 2 - t = (a + b) / 2 := by ring
  rw [ep]
  -- sizes
  have sa : |a| ≤ |(a + b) / 2| + w / 2 := by
    have : a = (a + b) / 2 + (a - b) / 2 := by ring
    calc |a| = |(a + b) / 2 + (a - b) / 2| := by rw [← this]
      _ ≤ |(a + b) / 2| + |(a - b) / 2| := abs_add_le _ _
      _ ≤ _ := by rw [abs_div (a - b)]; norm_num; linarith
  have sb : |b| ≤ |(a + b) / 2| + w / 2 := by
    have : b = (a + b) / 2 + -((a - b) / 2) := by ring
    calc |b| = |(a + b) / 2 + -((a - b) / 2)| := by rw [← this]
      _ ≤ |(a + b) / 2| + |-((a - b) / 2)| := abs_add_le _ _
      _ ≤ _ := by rw [abs_neg, abs_div (a - b)]; norm_num; linarith
  have xs : |x| ≤ |a| + |t| + (|a| + |t|) / 2 ^ 50 := by
    have : x = a + t + (x - (a + t)) := by ring
    calc |x| = |a + t + (x - (a + t))| := by rw [← this]
      _ ≤ |a + t| + |x - (a + t)| := abs_add_le _ _
      _ ≤ _ := by have := abs_add_le a t; linarith
  have ys : |y| ≤ |b| + |t| + (|b| + |t|) / 2 ^ 50 := by
    have : y = b + t + (y - (b + t)) := by ring
    calc |y| = |b + t + (y - (b + t))| := by rw [← this]
      _ ≤ |b + t| + |y - (b + t)| := abs_add_le _ _
      _ ≤ _ := by have := abs_add_le b t; linarith
  have split : z - (a + t + (b + t)) / 2 = (z - (x + y) / 2) + ((x - (a + t)) / 2 + (y - (b + t)) / 2) := by ring
  rw [split]
  have b1 := abs_add_le (z - (x + y) / 2) ((x - (a + t)) / 2 + (y - (b + t)) / 2)
  have b2 := abs_add_le ((x - (a + t)) / 2) ((y - (b + t)) / 2)
  have b3 : |(x - (a + t)) / 2| = |x - (a + t)| / 2 := by rw [abs_div]; norm_num
  have b4 : |(y - (b + t)) / 2| = |y - (b + t)| / 2 := by rw [abs_div]; norm_num
  rw [b3, b4] at b2
  have a0 := abs_nonneg a
  have bb0 := abs_nonneg b
  have t0 := abs_nonneg t
  have m0 := abs_nonneg ((a + b) / 2)
  generalize |(a + b) / 2| = M at *
  generalize |x - (a + t)| = E1 at *
  generalize |y - (b + t)| = E2 at *
  generalize |z - (x + y) / 2| = E3 at *
  generalize |a| = A at *
  generalize |b| = B at *
  generalize |t| = T at *
  linarith

end F64
end StlDice
