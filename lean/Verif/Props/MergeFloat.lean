import Verif.Lemmas.Float64
import Verif.Lemmas.FloatError
import Verif.Props.ShellWorld
import Verif.Spec.Float64

/-! # Merging shells in float64 (C86) -/

namespace StlDice
open Spec GoFloat F64

namespace F64

/-- Rounding a number that is not tiny: a relative error of at most `2^-53`. -/
theorem rnd_rel {q : ℚ} (h0 : 0 < q) (h : (2 : ℚ) ^ (-1022 : Int) ≤ q) :
    q * (1 - 1 / 2 ^ 53) ≤ rnd q ∧ rnd q ≤ q * (1 + 1 / 2 ^ 53) := by
  have := rnd_error (q := q) (by rwa [abs_of_pos h0])
  rw [abs_of_pos h0] at this
  obtain ⟨a, b⟩ := abs_le.mp this
  constructor <;> linarith

theorem toInt_trunc (a : F64) : (0 ≤ a.val → (toInt a : ℚ) ≤ a.val ∧ a.val < toInt a + 1) ∧
    (a.val ≤ 0 → a.val ≤ (toInt a : ℚ) ∧ (toInt a : ℚ) - 1 < a.val) := by
  have e : toInt a = if 0 ≤ a.val then a.val.floor else a.val.ceil := rfl
  constructor
  · intro h
    rw [e, if_pos h]
    have := Rat.lt_floor_add_one a.val
    push_cast at this
    exact ⟨Rat.floor_le _, this⟩
  · intro h
    by_cases h0 : 0 ≤ a.val
    · have : a.val = 0 := le_antisymm h h0
      rw [e, if_pos h0, this]
      have : Rat.floor 0 = 0 := rfl
      rw [this]
      norm_num
    · rw [e, if_neg h0]
      have h1 := Int.le_ceil a.val
      have h2 := Int.ceil_lt_add_one a.val
      have : Rat.ceil a.val = ⌈a.val⌉ := by rw [Rat.ceil_eq_neg_floor_neg]; rfl
      rw [this]
      exact ⟨h1, by linarith⟩

theorem toInt_exact {a : F64} {n : Int} (h : a.val = n) : toInt a = n := by
  obtain ⟨h1, h2⟩ := toInt_trunc a
  rcases le_total 0 a.val with h0 | h0
  · obtain ⟨p, q⟩ := h1 h0
    rw [h] at p q
    have p' : toInt a ≤ n := by exact_mod_cast p
    have q' : n < toInt a + 1 := by exact_mod_cast q
    omega
  · obtain ⟨p, q⟩ := h2 h0
    rw [h] at p q
    have p' : n ≤ toInt a := by exact_mod_cast p
    have q' : toInt a - 1 < n := by exact_mod_cast q
    omega

end F64

/-! ## The displacement -/

/-- One axis of the displacement: exact when the difference of the translations is a float64 and spans a whole number
    of voxels. -/
theorem offset_f64_exact {b t v : F64} {e : Int} (hd : Binary64 (b.val - t.val)) (he : (b.val - t.val) * v.val = e)
    (hs : |e| ≤ 2 ^ 53) : toInt (mul (sub b t) v) = e := by
  apply toInt_exact
  have h1 : (sub b t : F64).val = b.val - t.val := of_exact hd
  show rnd ((sub b t : F64).val * v.val) = e
  rw [h1, he]
  exact rnd_of_mem (binary64_int hs)

/-- **C86.** When the translations of the model and the shell differ, on every axis, by a float64 that is a whole number
    of voxels, `Add` moves by exactly that many voxels, also in float64. -/
theorem displacement_f64_exact {vs : VShell F64} {bv : BinVOX F64} {e : Key}
    (dx : Binary64 (bv.TX.val - vs.TX.val)) (dy : Binary64 (bv.TY.val - vs.TY.val)) (dz : Binary64 (bv.TZ.val - vs.TZ.val))
    (hx : (bv.TX.val - vs.TX.val) * vs.VoxelsPerMM.val = e.X) (hy : (bv.TY.val - vs.TY.val) * vs.VoxelsPerMM.val = e.Y)
    (hz : (bv.TZ.val - vs.TZ.val) * vs.VoxelsPerMM.val = e.Z) (hs : |e.X| ≤ 2 ^ 53 ∧ |e.Y| ≤ 2 ^ 53 ∧ |e.Z| ≤ 2 ^ 53) :
    displacement vs bv = e := by
  unfold displacement
  rw [offset_f64_exact dx hx hs.1, offset_f64_exact dy hy hs.2.1, offset_f64_exact dz hz hs.2.2]

theorem rnd_pos_of {q : ℚ} (h : 0 < q) (h2 : (2 : ℚ) ^ (-1022 : Int) ≤ q) : 0 < rnd q := by
  have := (rnd_rel h h2).1
  have : 0 < q * (1 - 1 / 2 ^ 53) := mul_pos h (by norm_num)
  linarith

/-- One axis of the displacement: in general it is off by less than one voxel and a few last bits. -/
theorem offset_f64_error (b t v : F64) :
    |(toInt (mul (sub b t) v) : ℚ) - (b.val - t.val) * v.val| <
      1 + |(b.val - t.val) * v.val| / 2 ^ 51 + 2 ^ (-1075 : Int) := by
  have e1 : |(sub b t : F64).val - (b.val - t.val)| ≤ |b.val - t.val| / 2 ^ 53 := by
    have := add_error (val_mem b) (binary64_neg (val_mem t))
    rw [← sub_eq_add_neg] at this
    exact this
  have e2 := rnd_error_abs ((sub b t : F64).val * v.val)
  have e3 : |(sub b t : F64).val * v.val - (b.val - t.val) * v.val| ≤ |(b.val - t.val) * v.val| / 2 ^ 53 := by
    rw [← sub_mul, abs_mul, abs_mul]
    have := mul_le_mul_of_nonneg_right e1 (abs_nonneg v.val)
    linarith
  have e4 : |(mul (sub b t) v : F64).val - (sub b t : F64).val * v.val| ≤
      |(sub b t : F64).val * v.val| / 2 ^ 53 + 2 ^ (-1075 : Int) := e2
  have e5 : |(toInt (mul (sub b t) v) : ℚ) - (mul (sub b t) v : F64).val| < 1 := by
    obtain ⟨h1, h2⟩ := toInt_trunc (mul (sub b t) v)
    rw [abs_lt]
    rcases le_total 0 (mul (sub b t) v : F64).val with h | h
    · obtain ⟨p, q⟩ := h1 h
      constructor <;> linarith
    · obtain ⟨p, q⟩ := h2 h
      constructor <;> linarith
  generalize (2 : ℚ) ^ (-1075 : Int) = tiny at *
  generalize (mul (sub b t) v : F64).val = z at *
  generalize (sub b t : F64).val * v.val = y at *
  generalize (b.val - t.val) * v.val = x at *
  generalize (toInt (mul (sub b t) v) : ℚ) = w at *
  have y1 : |y| ≤ |x| + |x| / 2 ^ 53 := by
    have : |y| ≤ |x| + |y - x| := by
      have := abs_add_le x (y - x)
      rwa [add_sub_cancel] at this
    linarith
  have t1 : |w - x| ≤ |w - z| + |z - y| + |y - x| := by
    have a1 := abs_sub_le w z x
    have a2 := abs_sub_le z y x
    linarith
  have x0 := abs_nonneg x
  linarith

/-! ## The resolution -/

theorem vpmm_f64 (vs : VShell F64) (hs : 0 < vs.Scale.val) (hd : |vs.Dim| ≤ 2 ^ 53) :
    vs.VoxelsPerMM.val = rnd ((vs.Dim : ℚ) / vs.Scale.val) := by
  unfold VShell.VoxelsPerMM BinVOX.vpmmOf
  have h0 : GoFloat.le vs.Scale (GoFloat.ofInt 0 : F64) = false := by
    show decide (vs.Scale.val ≤ (ofInt 0 : F64).val) = false
    rw [decide_eq_false_iff_not]
    have : (ofInt 0 : F64).val = 0 := rfl
    rw [this]
    exact not_le.mpr hs
  rw [h0]
  show rnd ((ofInt (BinVOX.dimOf vs.NX vs.NY vs.NZ) : F64).val / vs.Scale.val) = _
  have : (ofInt (BinVOX.dimOf vs.NX vs.NY vs.NZ) : F64).val = (BinVOX.dimOf vs.NX vs.NY vs.NZ : ℚ) := of_exact (binary64_int hd)
  rw [this]
  rfl

theorem half_rel {q r : ℚ} (h0 : 0 < q) (h : q * (1 - 1 / 2 ^ 53) ≤ r) (h2 : r ≤ q * (1 + 1 / 2 ^ 53)) :
    q / 2 ≤ r ∧ r ≤ 2 * q := by
  constructor <;> nlinarith

theorem drift_lo {u : ℚ} (u0 : 0 < u) : (1 + u) * (1 + u) * (1 + u) * (1 - 5 * u) ≤ 1 - u := by
  have e : (1 + u) * (1 + u) * (1 + u) * (1 - 5 * u) = 1 - 2 * u - 12 * (u * u) - 14 * (u * u * u) - 5 * (u * u * (u * u)) := by ring
  have h1 : 0 ≤ u * u := by positivity
  have h2 : 0 ≤ u * u * u := by positivity
  have h3 : 0 ≤ u * u * (u * u) := by positivity
  linarith

theorem drift_hi {u : ℚ} (u0 : 0 < u) (u1 : u ≤ 1 / 100) : 1 + u ≤ (1 - u) * (1 - u) * (1 - u) * (1 + 5 * u) := by
  have e : (1 - u) * (1 - u) * (1 - u) * (1 + 5 * u) = 1 + 2 * u - 12 * (u * u) + 14 * (u * u * u) - 5 * (u * u * (u * u)) := by ring
  have h1 : u * u ≤ 1 / 100 * u := mul_le_mul_of_nonneg_right u1 u0.le
  have h1' : u * u ≤ 1 := by linarith
  have h2 : u * u * (u * u) ≤ 1 * (u * u) := mul_le_mul_of_nonneg_right h1' (by positivity)
  have h3 : 0 ≤ u * u * u := by positivity
  linarith

/-- The four roundings of adjusting the scale. -/
theorem adjust_core {D S b : ℚ} (hD : 1 ≤ D) (hS : 0 < S) (hb : 0 < b)
    (a1 : (2 : ℚ) ^ (-1022 : Int) ≤ D / S) (a2 : (2 : ℚ) ^ (-1022 : Int) ≤ D / S / b / 2)
    (a3 : (2 : ℚ) ^ (-1022 : Int) ≤ D / b / 4) (a4 : (2 : ℚ) ^ (-1022 : Int) ≤ b / 8) :
    0 < rnd (S * rnd (rnd (D / S) / b)) ∧
    b * (1 - 5 / 2 ^ 53) ≤ rnd (D / rnd (S * rnd (rnd (D / S) / b))) ∧
    rnd (D / rnd (S * rnd (rnd (D / S) / b))) ≤ b * (1 + 5 / 2 ^ 53) := by
  have hD0 : 0 < D := by linarith
  have A0 : 0 < D / S := div_pos hD0 hS
  obtain ⟨p1, q1⟩ := rnd_rel A0 a1
  set a := rnd (D / S) with ha
  have ah := (half_rel A0 p1 q1).1
  have a0 : 0 < a := by linarith
  have B0 : 0 < a / b := div_pos a0 hb
  have B1 : D / S / b / 2 ≤ a / b := by
    have := div_le_div_of_nonneg_right ah hb.le
    have e : D / S / 2 / b = D / S / b / 2 := by ring
    linarith
  obtain ⟨p2, q2⟩ := rnd_rel B0 (a2.trans B1)
  set r := rnd (a / b) with hr
  have r0 : 0 < r := by linarith [(half_rel B0 p2 q2).1]
  have C0 : 0 < S * r := mul_pos hS r0
  generalize hu : (1 / 2 ^ 53 : ℚ) = u at p1 q1 p2 q2
  have u0 : 0 < u := by rw [← hu]; norm_num
  have u1 : u ≤ 1 / 100 := by rw [← hu]; norm_num
  have e5 : (5 / 2 ^ 53 : ℚ) = 5 * u := by rw [← hu]; ring
  -- `S * r` lies around `D / b`
  have key : S * (D / S / b) = D / b := by field_simp
  have w0 : 0 < D / b := div_pos hD0 hb
  have lo : D / b * ((1 - u) * (1 - u)) ≤ S * r := by
    have h1 : D / S * (1 - u) / b ≤ a / b := div_le_div_of_nonneg_right p1 hb.le
    have h2 : D / S * (1 - u) / b * (1 - u) ≤ r := (mul_le_mul_of_nonneg_right h1 (by linarith)).trans p2
    have h3 := mul_le_mul_of_nonneg_left h2 hS.le
    have : S * (D / S * (1 - u) / b * (1 - u)) = S * (D / S / b) * ((1 - u) * (1 - u)) := by ring
    rw [this, key] at h3
    exact h3
  have hi : S * r ≤ D / b * ((1 + u) * (1 + u)) := by
    have h1 : a / b ≤ D / S * (1 + u) / b := div_le_div_of_nonneg_right q1 hb.le
    have h2 : r ≤ D / S * (1 + u) / b * (1 + u) := q2.trans (mul_le_mul_of_nonneg_right h1 (by linarith))
    have h3 := mul_le_mul_of_nonneg_left h2 hS.le
    have : S * (D / S * (1 + u) / b * (1 + u)) = S * (D / S / b) * ((1 + u) * (1 + u)) := by ring
    rw [this, key] at h3
    exact h3
  have C1 : D / b / 4 ≤ S * r := by
    refine le_trans ?_ lo
    have : 1 / 4 ≤ (1 - u) * (1 - u) := by nlinarith
    have := mul_le_mul_of_nonneg_left this w0.le
    linarith
  obtain ⟨p3, q3⟩ := rnd_rel C0 (a3.trans C1)
  rw [hu] at p3 q3
  set s := rnd (S * r) with hs
  have s0 : 0 < s := by
    have : 0 < S * r * (1 - u) := mul_pos C0 (by linarith)
    linarith
  have lo3 : D / b * ((1 - u) * (1 - u) * (1 - u)) ≤ s := by
    have := mul_le_mul_of_nonneg_right lo (by linarith : 0 ≤ 1 - u)
    linarith
  have hi3 : s ≤ D / b * ((1 + u) * (1 + u) * (1 + u)) := by
    have := mul_le_mul_of_nonneg_right hi (by linarith : 0 ≤ 1 + u)
    linarith
  have E0 : 0 < D / s := div_pos hD0 s0
  have E1 : b ≤ D / s * ((1 + u) * (1 + u) * (1 + u)) := by
    rw [div_mul_eq_mul_div, le_div_iff₀ s0]
    have := mul_le_mul_of_nonneg_left hi3 hb.le
    have e : b * (D / b * ((1 + u) * (1 + u) * (1 + u))) = D * ((1 + u) * (1 + u) * (1 + u)) := by field_simp
    linarith
  have E2 : D / s * ((1 - u) * (1 - u) * (1 - u)) ≤ b := by
    rw [div_mul_eq_mul_div, div_le_iff₀ s0]
    have := mul_le_mul_of_nonneg_left lo3 hb.le
    have e : b * (D / b * ((1 - u) * (1 - u) * (1 - u))) = D * ((1 - u) * (1 - u) * (1 - u)) := by field_simp
    linarith
  have E3 : b / 8 ≤ D / s := by
    have : (1 + u) * (1 + u) * (1 + u) ≤ 8 := by nlinarith
    have := mul_le_mul_of_nonneg_left this E0.le
    linarith
  obtain ⟨p4, q4⟩ := rnd_rel E0 (a4.trans E3)
  rw [hu] at p4 q4
  rw [e5]
  refine ⟨s0, ?_, ?_⟩
  · refine le_trans ?_ p4
    have c := drift_lo u0
    have := mul_le_mul_of_nonneg_left c E0.le
    have h2 := mul_le_mul_of_nonneg_right E1 (by linarith : 0 ≤ 1 - 5 * u)
    linarith
  · refine q4.trans ?_
    have c := drift_hi u0 u1
    have := mul_le_mul_of_nonneg_left c E0.le
    have h2 := mul_le_mul_of_nonneg_right E2 (by linarith : 0 ≤ 1 + 5 * u)
    linarith

theorem binary64_pow {e : Int} (h : -1074 ≤ e) : Binary64 ((2 : ℚ) ^ e) := ⟨1, e, by norm_num, h, by norm_num⟩

theorem of_rnd_ge {q : ℚ} {e : Int} (he : -1073 ≤ e) (h : (2 : ℚ) ^ e ≤ rnd q) : (2 : ℚ) ^ (e - 1) ≤ q := by
  by_contra hc
  have := rnd_mono (le_of_lt (not_le.mp hc))
  rw [rnd_of_mem (binary64_pow (by omega))] at this
  have h2 : (2 : ℚ) ^ (e - 1) < 2 ^ e := zpow_lt_zpow_right₀ (by norm_num) (by omega)
  linarith

/-- The resolution is no extreme number: between `2^-400` and `2^400` voxels per millimetre. -/
def Spec.Moderate (v : ℚ) : Prop := (2 : ℚ) ^ (-400 : Int) ≤ v ∧ v ≤ (2 : ℚ) ^ (400 : Int)

theorem dim_grown_le [GoFloat F] (vs : VShell F) (ks : List Key) : vs.Dim ≤ (grown vs ks).Dim := by
  obtain ⟨⟨c1, c2, c3⟩, _⟩ := grown_covers vs ks
  unfold VShell.Dim
  exact dimOf_mono c1 c2 c3

theorem grown_f64 (vs : VShell F64) (ks : List Key) (hs : 0 < vs.Scale.val) (hd : 0 < vs.Dim)
    (hv : Moderate vs.VoxelsPerMM.val) (hD : (grown vs ks).Dim ≤ 2 ^ 53) :
    |(grown vs ks).VoxelsPerMM.val - vs.VoxelsPerMM.val| ≤ vs.VoxelsPerMM.val * (5 / 2 ^ 53) ∧
      0 < (grown vs ks).Scale.val ∧ 0 < (grown vs ks).Dim := by
  have hle := dim_grown_le vs ks
  have hd1 : |vs.Dim| ≤ 2 ^ 53 := abs_le.mpr ⟨by omega, by omega⟩
  have hv0 := vpmm_f64 vs hs hd1
  have hpos : 0 < vs.VoxelsPerMM.val := lt_of_lt_of_le (by positivity) hv.1
  have gd : 0 < (grown vs ks).Dim := by omega
  have gD : |(grown vs ks).Dim| ≤ 2 ^ 53 := abs_le.mpr ⟨by omega, hD⟩
  let w : VShell F64 := { vs with NX := cover vs.NX (ks.map Key.X), NY := cover vs.NY (ks.map Key.Y), NZ := cover vs.NZ (ks.map Key.Z) }
  have hg : grown vs ks = w.adjustScale vs.VoxelsPerMM := rfl
  have hgd : (grown vs ks).Dim = w.Dim := by
    obtain ⟨h1, h2, h3, _⟩ := adjustScale_dims w vs.VoxelsPerMM
    rw [hg]
    unfold VShell.Dim
    rw [h1, h2, h3]
  have hw : w.VoxelsPerMM.val = rnd ((w.Dim : ℚ) / vs.Scale.val) := vpmm_f64 w hs (by rw [← hgd]; exact gD)
  by_cases he : GoFloat.eq vs.VoxelsPerMM w.VoxelsPerMM = true
  · have hg2 : grown vs ks = w := by
      rw [hg]
      unfold VShell.adjustScale
      dsimp only
      rw [he]
      rfl
    have e : vs.VoxelsPerMM.val = w.VoxelsPerMM.val := of_decide_eq_true he
    refine ⟨?_, ?_, gd⟩
    · rw [hg2, ← e, sub_self, abs_zero]
      positivity
    · rw [hg2]; exact hs
  · have he : GoFloat.eq vs.VoxelsPerMM w.VoxelsPerMM = false := by simpa using he
    have hS : (grown vs ks).Scale.val = rnd (vs.Scale.val * rnd (w.VoxelsPerMM.val / vs.VoxelsPerMM.val)) := by
      rw [hg]
      unfold VShell.adjustScale
      dsimp only
      rw [he]
      rfl
    rw [hw] at hS
    have hD1 : (1 : ℚ) ≤ w.Dim := by rw [← hgd]; exact_mod_cast gd
    have l1 : (2 : ℚ) ^ (-401 : Int) ≤ (vs.Dim : ℚ) / vs.Scale.val :=
      of_rnd_ge (e := -400) (by norm_num) (by rw [← hv0]; exact hv.1)
    have l2 : (2 : ℚ) ^ (-401 : Int) ≤ (w.Dim : ℚ) / vs.Scale.val := by
      refine l1.trans (div_le_div_of_nonneg_right ?_ hs.le)
      rw [← hgd]; exact_mod_cast hle
    have z1 : (2 : ℚ) ^ (-1022 : Int) ≤ 2 ^ (-401 : Int) := zpow_le_zpow_right₀ (by norm_num) (by norm_num)
    have z2 : (2 : ℚ) ^ (-1022 : Int) ≤ 2 ^ (-801 : Int) / 2 := by
      have : (2 : ℚ) ^ (-801 : Int) / 2 = 2 ^ (-802 : Int) := by
        rw [show (-801 : Int) = -802 + 1 by norm_num, zpow_add_one₀ (by norm_num)]; ring
      rw [this]
      exact zpow_le_zpow_right₀ (by norm_num) (by norm_num)
    have z3 : (2 : ℚ) ^ (-1022 : Int) ≤ 2 ^ (-400 : Int) / 4 ∧ (2 : ℚ) ^ (-1022 : Int) ≤ 2 ^ (-400 : Int) / 8 := by
      have e : (2 : ℚ) ^ (-400 : Int) = 2 ^ (-403 : Int) * 8 := by
        rw [show (-400 : Int) = -403 + 3 by norm_num, zpow_add₀ (by norm_num)]; norm_num
      have h : (2 : ℚ) ^ (-1022 : Int) ≤ 2 ^ (-403 : Int) := zpow_le_zpow_right₀ (by norm_num) (by norm_num)
      have p : (0 : ℚ) < 2 ^ (-403 : Int) := by positivity
      rw [e]
      generalize (2 : ℚ) ^ (-403 : Int) = x at h p
      generalize (2 : ℚ) ^ (-1022 : Int) = y at h
      constructor <;> linarith
    have inv : (2 : ℚ) ^ (-400 : Int) ≤ 1 / vs.VoxelsPerMM.val := by
      rw [le_div_iff₀ hpos]
      have := mul_le_mul_of_nonneg_left hv.2 (by positivity : (0 : ℚ) ≤ 2 ^ (-400 : Int))
      rw [← zpow_add₀ (by norm_num)] at this
      simpa using this
    have hb2 : (2 : ℚ) ^ (-801 : Int) ≤ (w.Dim : ℚ) / vs.Scale.val / vs.VoxelsPerMM.val := by
      have := mul_le_mul l2 inv (by positivity) (le_trans (by positivity) l2)
      rw [← zpow_add₀ (by norm_num)] at this
      rw [show (-801 : Int) = -401 + -400 by norm_num]
      calc _ ≤ _ := this
        _ = _ := by ring
    have hb3 : (2 : ℚ) ^ (-400 : Int) ≤ (w.Dim : ℚ) / vs.VoxelsPerMM.val :=
      inv.trans (div_le_div_of_nonneg_right hD1 hpos.le)
    have core := adjust_core (D := (w.Dim : ℚ)) (S := vs.Scale.val) (b := vs.VoxelsPerMM.val) hD1 hs hpos
      (z1.trans l2) (z2.trans (div_le_div_of_nonneg_right hb2 (by norm_num)))
      (z3.1.trans (div_le_div_of_nonneg_right hb3 (by norm_num))) (z3.2.trans (div_le_div_of_nonneg_right hv.1 (by norm_num)))
    obtain ⟨k1, k2, k3⟩ := core
    rw [← hS] at k1 k2 k3
    have hg3 : (grown vs ks).VoxelsPerMM.val = rnd ((w.Dim : ℚ) / (grown vs ks).Scale.val) := by
      rw [vpmm_f64 _ k1 gD, hgd]
    rw [← hg3] at k2 k3
    refine ⟨abs_le.mpr ⟨?_, ?_⟩, k1, gd⟩ <;> linarith

theorem updated_dim_le [GoFloat F] (vs : VShell F) (bv : BinVOX F) : vs.Dim ≤ (updated vs bv).Dim := by
  unfold updated
  dsimp only
  split
  · exact le_refl _
  · exact dim_grown_le _ _

theorem updated_f64 (vs : VShell F64) (bv : BinVOX F64) (hs : 0 < vs.Scale.val) (hd : 0 < vs.Dim)
    (hv : Moderate vs.VoxelsPerMM.val) (hD : (updated vs bv).Dim ≤ 2 ^ 53) :
    |(updated vs bv).VoxelsPerMM.val - vs.VoxelsPerMM.val| ≤ vs.VoxelsPerMM.val * (5 / 2 ^ 53) ∧
      0 < (updated vs bv).Scale.val ∧ 0 < (updated vs bv).Dim := by
  unfold updated at *
  dsimp only at *
  split
  · refine ⟨?_, hs, hd⟩
    have : ({ vs with TX := minT bv.TX vs.TX, TY := minT bv.TY vs.TY, TZ := minT bv.TZ vs.TZ } : VShell F64).VoxelsPerMM =
      vs.VoxelsPerMM := rfl
    rw [this, sub_self, abs_zero]
    have : 0 < vs.VoxelsPerMM.val := lt_of_lt_of_le (by positivity) hv.1
    positivity
  · rename_i hn
    rw [if_neg hn] at hD
    exact grown_f64 _ _ hs hd hv hD

theorem moderate_near {v w : ℚ} (h1 : (2 : ℚ) ^ (-399 : Int) ≤ v) (h2 : v ≤ 2 ^ (399 : Int)) (hw : |w - v| ≤ v / 2) : Moderate w := by
  obtain ⟨a, b⟩ := abs_le.mp hw
  have h0 : 0 < v := lt_of_lt_of_le (by positivity) h1
  have e1 : (2 : ℚ) ^ (-399 : Int) = 2 ^ (-400 : Int) * 2 := by
    rw [show (-399 : Int) = -400 + 1 by norm_num, zpow_add_one₀ (by norm_num)]
  have e2 : (2 : ℚ) ^ (400 : Int) = 2 ^ (399 : Int) * 2 := by
    rw [show (400 : Int) = 399 + 1 by norm_num, zpow_add_one₀ (by norm_num)]
  unfold Moderate
  rw [e2]
  rw [e1] at h1
  clear e1 e2
  generalize (2 : ℚ) ^ (-400 : Int) = x at *
  generalize (2 : ℚ) ^ (399 : Int) = y at *
  exact ⟨by linarith, by linarith⟩

theorem moderate_next {v w : ℚ} (h : Moderate v) (hw : |w - v| ≤ v * (5 / 2 ^ 53)) : 0 < v ∧ |w| ≤ v * (1 + 5 / 2 ^ 53) := by
  have h0 : 0 < v := lt_of_lt_of_le (by positivity) h.1
  refine ⟨h0, ?_⟩
  have : |w| ≤ |v| + |w - v| := by
    have := abs_add_le v (w - v)
    rwa [add_sub_cancel] at this
  rw [abs_of_pos h0] at this
  linarith

/-- **C86.** One `Add` changes the resolution of the shell by a few last bits at most. -/
theorem add_resolution_f64 (sch : AddSched) (vs vs' : VShell F64) (bv : BinVOX F64) (hs : 0 < vs.Scale.val) (hd : 0 < vs.Dim)
    (h1 : (2 : ℚ) ^ (-399 : Int) ≤ vs.VoxelsPerMM.val) (h2 : vs.VoxelsPerMM.val ≤ 2 ^ (399 : Int)) (hD : vs'.Dim ≤ 2 ^ 53)
    (he : vs.Add sch bv = some vs') :
    |vs'.VoxelsPerMM.val - vs.VoxelsPerMM.val| ≤ vs.VoxelsPerMM.val / 2 ^ 49 ∧ 0 < vs'.Scale.val ∧ 0 < vs'.Dim ∧ vs.Dim ≤ vs'.Dim := by
  have h0 : 0 < vs.VoxelsPerMM.val := lt_of_lt_of_le (by positivity) h1
  have hm : Moderate vs.VoxelsPerMM.val := moderate_near h1 h2 (by rw [sub_self, abs_zero]; positivity)
  by_cases hne : vs.Voxels = []
  · rw [Add_eq_nil _ _ _ hne] at he
    cases he
    obtain ⟨a, b, c⟩ := grown_f64 vs (movedKeys sch ⟨0, 0, 0⟩) hs hd hm hD
    refine ⟨le_trans a ?_, b, c, dim_grown_le _ _⟩
    linarith
  · rw [Add_eq _ _ _ hne] at he
    split at he
    · cases he
    · cases he
      have l1 := updated_dim_le vs bv
      have l2 := dim_grown_le (updated vs bv) (movedKeys sch (newMove (displacement vs bv)))
      obtain ⟨a, b, c⟩ := updated_f64 vs bv hs hd hm (le_trans l2 hD)
      have hm2 : Moderate (updated vs bv).VoxelsPerMM.val := moderate_near h1 h2 (le_trans a (by linarith))
      obtain ⟨a', b', c'⟩ := grown_f64 (updated vs bv) (movedKeys sch (newMove (displacement vs bv))) b c hm2 hD
      refine ⟨?_, b', c', le_trans l1 l2⟩
      have t := abs_sub_le (grown (updated vs bv) (movedKeys sch (newMove (displacement vs bv)))).VoxelsPerMM.val
        (updated vs bv).VoxelsPerMM.val vs.VoxelsPerMM.val
      have u := (abs_le.mp a).2
      refine le_trans t ?_
      linarith

theorem add_dim_le [GoFloat F] {sch : AddSched} {vs vs' : VShell F} {bv : BinVOX F} (he : vs.Add sch bv = some vs') :
    vs.Dim ≤ vs'.Dim := by
  by_cases hne : vs.Voxels = []
  · rw [Add_eq_nil _ _ _ hne] at he
    cases he
    exact dim_grown_le _ _
  · rw [Add_eq _ _ _ hne] at he
    split at he
    · cases he
    · cases he
      exact le_trans (updated_dim_le vs bv) (dim_grown_le _ _)

theorem merge_none [GoFloat F] (fs : List (AddSched × Option (BinVOX F))) : fs.foldl VShell.mergeStep none = none := by
  induction fs with
  | nil => rfl
  | cons f fs ih => exact ih

theorem merge_cons [GoFloat F] {vs vs' : VShell F} {f : AddSched × Option (BinVOX F)} {fs : List (AddSched × Option (BinVOX F))}
    (h : (f :: fs).foldl VShell.mergeStep (some (some vs)) = some (some vs')) :
    ∃ bv vs1, f.2 = some bv ∧ vs.Add f.1 bv = some vs1 ∧ fs.foldl VShell.mergeStep (some (some vs1)) = some (some vs') := by
  obtain ⟨sch, b⟩ := f
  rw [List.foldl_cons] at h
  cases b with
  | none =>
    have : VShell.mergeStep (some (some vs)) (sch, none) = none := rfl
    rw [this, merge_none] at h
    cases h
  | some bv =>
    have : VShell.mergeStep (some (some vs)) (sch, some bv) = (vs.Add sch bv).map some := rfl
    rw [this] at h
    cases ha : vs.Add sch bv with
    | none => rw [ha, Option.map_none, merge_none] at h; cases h
    | some vs1 => exact ⟨bv, vs1, rfl, ha, by rw [ha] at h; exact h⟩

theorem merge_dim_le [GoFloat F] (fs : List (AddSched × Option (BinVOX F))) {vs vs' : VShell F}
    (h : fs.foldl VShell.mergeStep (some (some vs)) = some (some vs')) : vs.Dim ≤ vs'.Dim := by
  induction fs generalizing vs with
  | nil => cases h; exact le_refl _
  | cons f fs ih =>
    obtain ⟨bv, vs1, _, ha, h⟩ := merge_cons h
    exact le_trans (add_dim_le ha) (ih h)

theorem moderate398 {v w : ℚ} (h1 : (2 : ℚ) ^ (-398 : Int) ≤ v) (h2 : v ≤ 2 ^ (398 : Int)) (hw : |w - v| ≤ v / 2) :
    (2 : ℚ) ^ (-399 : Int) ≤ w ∧ w ≤ 2 ^ (399 : Int) := by
  obtain ⟨a, b⟩ := abs_le.mp hw
  have h0 : 0 < v := lt_of_lt_of_le (by positivity) h1
  have e1 : (2 : ℚ) ^ (-398 : Int) = 2 ^ (-399 : Int) * 2 := by
    rw [show (-398 : Int) = -399 + 1 by norm_num, zpow_add_one₀ (by norm_num)]
  have e2 : (2 : ℚ) ^ (399 : Int) = 2 ^ (398 : Int) * 2 := by
    rw [show (399 : Int) = 398 + 1 by norm_num, zpow_add_one₀ (by norm_num)]
  rw [e2]
  rw [e1] at h1
  clear e1 e2
  generalize (2 : ℚ) ^ (-399 : Int) = x at *
  generalize (2 : ℚ) ^ (398 : Int) = y at *
  exact ⟨by linarith, by linarith⟩

/-- What one `Add` keeps: the resolution stays within `k + 1` steps of `2^-48` of the first. -/
theorem drift_step {v0 : ℚ} (h1 : (2 : ℚ) ^ (-398 : Int) ≤ v0) (h2 : v0 ≤ 2 ^ (398 : Int)) {k : Nat} (hk : k ≤ 2 ^ 40)
    {sch : AddSched} {vs vs' : VShell F64} {bv : BinVOX F64} (hs : 0 < vs.Scale.val) (hd : 0 < vs.Dim)
    (hv : |vs.VoxelsPerMM.val - v0| ≤ k * (v0 / 2 ^ 48)) (he : vs.Add sch bv = some vs') (hD : vs'.Dim ≤ 2 ^ 53) :
    0 < vs'.Scale.val ∧ 0 < vs'.Dim ∧ |vs'.VoxelsPerMM.val - v0| ≤ ((k + 1 : Nat) : ℚ) * (v0 / 2 ^ 48) := by
  have h0 : 0 < v0 := lt_of_lt_of_le (by positivity) h1
  have hkq : (k : ℚ) ≤ 2 ^ 40 := by exact_mod_cast hk
  have hw : |vs.VoxelsPerMM.val - v0| ≤ v0 / 2 := by
    refine le_trans hv ?_
    have := mul_le_mul_of_nonneg_right hkq (by positivity : 0 ≤ v0 / 2 ^ 48)
    refine le_trans this ?_
    linarith
  obtain ⟨m1, m2⟩ := moderate398 h1 h2 hw
  obtain ⟨a, b, c, _⟩ := add_resolution_f64 sch vs vs' bv hs hd m1 m2 hD he
  refine ⟨b, c, ?_⟩
  have t := abs_sub_le vs'.VoxelsPerMM.val vs.VoxelsPerMM.val v0
  have u := (abs_le.mp hw).2
  push_cast
  rw [add_mul, one_mul]
  have : vs.VoxelsPerMM.val / 2 ^ 49 ≤ v0 / 2 ^ 48 := by linarith
  linarith

/-- The shell `New` makes. -/
theorem new_f64 {sch : AddSched} {bv : BinVOX F64} {vs : VShell F64} (h : VShell.New sch bv = some vs)
    (hs : 0 < bv.Scale.val) (hd : 0 < bv.Dim) (h1 : (2 : ℚ) ^ (-398 : Int) ≤ bv.VoxelsPerMM.val)
    (h2 : bv.VoxelsPerMM.val ≤ 2 ^ (398 : Int)) (hD : vs.Dim ≤ 2 ^ 53) :
    0 < vs.Scale.val ∧ 0 < vs.Dim ∧ |vs.VoxelsPerMM.val - bv.VoxelsPerMM.val| ≤ ((1 : Nat) : ℚ) * (bv.VoxelsPerMM.val / 2 ^ 48) := by
  have h0 : 0 < bv.VoxelsPerMM.val := lt_of_lt_of_le (by positivity) h1
  unfold VShell.New at h
  dsimp only at h
  split at h
  · exact drift_step (k := 0) h1 h2 (by norm_num) (vs := ⟨bv.NX, bv.NY, bv.NZ, bv.TX, bv.TY, bv.TZ, bv.Scale, []⟩) hs hd
      (by
        show |bv.VoxelsPerMM.val - bv.VoxelsPerMM.val| ≤ _
        rw [sub_self, abs_zero]
        simp) h hD
  · cases h
    refine ⟨hs, hd, ?_⟩
    show |bv.VoxelsPerMM.val - bv.VoxelsPerMM.val| ≤ _
    rw [sub_self, abs_zero]
    positivity

theorem merge_drift {v0 : ℚ} (h1 : (2 : ℚ) ^ (-398 : Int) ≤ v0) (h2 : v0 ≤ 2 ^ (398 : Int))
    (fs : List (AddSched × Option (BinVOX F64))) {k : Nat} (hk : k + fs.length ≤ 2 ^ 40) {vs vs' : VShell F64}
    (hs : 0 < vs.Scale.val) (hd : 0 < vs.Dim) (hv : |vs.VoxelsPerMM.val - v0| ≤ k * (v0 / 2 ^ 48))
    (he : fs.foldl VShell.mergeStep (some (some vs)) = some (some vs')) (hD : vs'.Dim ≤ 2 ^ 53) :
    |vs'.VoxelsPerMM.val - v0| ≤ ((k + fs.length : Nat) : ℚ) * (v0 / 2 ^ 48) := by
  induction fs generalizing vs k with
  | nil => cases he; exact hv
  | cons f fs ih =>
    rw [List.length_cons] at hk
    obtain ⟨bv, vs1, _, ha, h⟩ := merge_cons he
    obtain ⟨a, b, c⟩ := drift_step h1 h2 (by omega) hs hd hv ha (le_trans (merge_dim_le fs h) hD)
    have := ih (k := k + 1) (by omega) a b c h
    rw [show k + (f :: fs).length = k + 1 + fs.length by rw [List.length_cons]; omega]
    exact this

/-- **C86.** However many models are merged (fewer than `2^40`), the resolution of the shell stays close to that of the
    first model: each model moves it by at most `2^-48` of it. -/
theorem merge_resolution_f64 (f0 : AddSched × BinVOX F64) (fs : List (AddSched × Option (BinVOX F64))) (vs : VShell F64)
    (hs : 0 < f0.2.Scale.val) (hd : 0 < f0.2.Dim) (h1 : (2 : ℚ) ^ (-398 : Int) ≤ f0.2.VoxelsPerMM.val)
    (h2 : f0.2.VoxelsPerMM.val ≤ 2 ^ (398 : Int)) (hn : fs.length < 2 ^ 40)
    (he : VShell.Merge ((f0.1, some f0.2) :: fs) = some (some vs)) (hD : vs.Dim ≤ 2 ^ 53) :
    |vs.VoxelsPerMM.val - f0.2.VoxelsPerMM.val| ≤ ((fs.length + 1 : Nat) : ℚ) * (f0.2.VoxelsPerMM.val / 2 ^ 48) := by
  have h : fs.foldl VShell.mergeStep ((VShell.New f0.1 f0.2).map some) = some (some vs) := he
  cases hv : VShell.New f0.1 f0.2 with
  | none => rw [hv, Option.map_none, merge_none] at h; cases h
  | some v1 =>
    rw [hv] at h
    obtain ⟨a, b, c⟩ := new_f64 hv hs hd h1 h2 (le_trans (merge_dim_le fs h) hD)
    rw [add_comm fs.length 1]
    exact merge_drift h1 h2 fs (by omega) a b c h hD

/-- **C86.** Merging never fails in float64 when all models have the same whole number `k` of voxels per millimetre (cut
    off) and the resolution of the first keeps a distance of `2^-48` of itself per model from `k` and `k + 1`. -/
theorem merge_succeeds_f64 (f0 : AddSched × BinVOX F64) (fs : List (AddSched × BinVOX F64)) (k : Int) (hk : 0 ≤ k)
    (hs : 0 < f0.2.Scale.val) (hd : 0 < f0.2.Dim) (h1 : (2 : ℚ) ^ (-398 : Int) ≤ f0.2.VoxelsPerMM.val)
    (h2 : f0.2.VoxelsPerMM.val ≤ 2 ^ (398 : Int)) (hn : fs.length < 2 ^ 40)
    (lo : (k : ℚ) + ((fs.length + 1 : Nat) : ℚ) * (f0.2.VoxelsPerMM.val / 2 ^ 48) ≤ f0.2.VoxelsPerMM.val)
    (hi : f0.2.VoxelsPerMM.val + ((fs.length + 1 : Nat) : ℚ) * (f0.2.VoxelsPerMM.val / 2 ^ 48) < k + 1)
    (hf : ∀ f ∈ fs, toInt f.2.VoxelsPerMM = k)
    (hD : ∀ i vs, VShell.Merge (((f0 :: fs).map fun f => (f.1, some f.2)).take i) = some (some vs) → vs.Dim ≤ 2 ^ 53) :
    ∃ vs, VShell.Merge ((f0 :: fs).map fun f => (f.1, some f.2)) = some (some vs) := by
  have h0 : 0 < f0.2.VoxelsPerMM.val := lt_of_lt_of_le (by positivity) h1
  have hint : ∀ (n : Nat) (a : F64), n ≤ fs.length + 1 →
      |a.val - f0.2.VoxelsPerMM.val| ≤ n * (f0.2.VoxelsPerMM.val / 2 ^ 48) → toInt a = k := by
    intro n a hn' ha
    have hq : (n : ℚ) * (f0.2.VoxelsPerMM.val / 2 ^ 48) ≤ ((fs.length + 1 : Nat) : ℚ) * (f0.2.VoxelsPerMM.val / 2 ^ 48) :=
      mul_le_mul_of_nonneg_right (by exact_mod_cast hn') (by positivity)
    obtain ⟨p, q⟩ := abs_le.mp ha
    have hkq : (0 : ℚ) ≤ k := by exact_mod_cast hk
    have x1 : (k : ℚ) ≤ a.val := by linarith
    have x2 : a.val < (k : ℚ) + 1 := by linarith
    obtain ⟨y1, y2⟩ := (toInt_trunc a).1 (le_trans hkq x1)
    have z1 : toInt a < k + 1 := by
      have : (toInt a : ℚ) < k + 1 := lt_of_le_of_lt y1 x2
      exact_mod_cast this
    have z2 : k < toInt a + 1 := by
      have : (k : ℚ) < toInt a + 1 := lt_of_le_of_lt x1 y2
      exact_mod_cast this
    omega
  -- after `i + 1` models
  have step : ∀ i, i ≤ fs.length → ∃ vs, VShell.Merge (((f0 :: fs).map fun f => (f.1, some f.2)).take (i + 1)) = some (some vs) ∧
      0 < vs.Scale.val ∧ 0 < vs.Dim ∧ |vs.VoxelsPerMM.val - f0.2.VoxelsPerMM.val| ≤ ((i + 1 : Nat) : ℚ) * (f0.2.VoxelsPerMM.val / 2 ^ 48) := by
    intro i
    induction i with
    | zero =>
      intro _
      have hnew : ∃ vs, VShell.New f0.1 f0.2 = some vs := by
        unfold VShell.New
        dsimp only
        split
        · rw [Add_eq_nil _ _ _ rfl]; exact ⟨_, rfl⟩
        · exact ⟨_, rfl⟩
      obtain ⟨vs, hv⟩ := hnew
      have hm : VShell.Merge (((f0 :: fs).map fun f => (f.1, some f.2)).take (0 + 1)) = some (some vs) := by
        show (VShell.New f0.1 f0.2).map some = _
        rw [hv]
        rfl
      exact ⟨vs, hm, new_f64 hv hs hd h1 h2 (hD _ _ hm)⟩
    | succ i ih =>
      intro hi'
      obtain ⟨vs, hm, a, b, c⟩ := ih (by omega)
      have hlt : i + 1 < ((f0 :: fs).map fun f => (f.1, some f.2)).length := by
        rw [List.length_map, List.length_cons]; omega
      obtain ⟨f, hfe, hfm⟩ : ∃ f, ((f0 :: fs).map fun f => (f.1, some f.2))[i + 1] = (f.1, some f.2) ∧ f ∈ fs := by
        refine ⟨fs[i], ?_, List.getElem_mem _⟩
        simp
      have hadd : ∃ vs1, vs.Add f.1 f.2 = some vs1 := by
        by_cases hne : vs.Voxels = []
        · rw [Add_eq_nil _ _ _ hne]; exact ⟨_, rfl⟩
        · rw [Add_eq _ _ _ hne, hf f hfm, hint (i + 1) _ (by omega) c]
          simp only [ne_eq, not_true, if_false]
          exact ⟨_, rfl⟩
      obtain ⟨vs1, ha⟩ := hadd
      have hm1 : VShell.Merge (((f0 :: fs).map fun f => (f.1, some f.2)).take (i + 1 + 1)) = some (some vs1) := by
        rw [List.take_succ_eq_append_getElem hlt, hfe]
        unfold VShell.Merge at *
        rw [List.foldl_append, hm]
        show (vs.Add f.1 f.2).map some = _
        rw [ha]
        rfl
      exact ⟨vs1, hm1, drift_step h1 h2 (by omega) a b c ha (hD _ _ hm1)⟩
  obtain ⟨vs, h, _⟩ := step fs.length (le_refl _)
  refine ⟨vs, ?_⟩
  have e : ((f0 :: fs).map fun f => (f.1, some f.2)).take (fs.length + 1) = (f0 :: fs).map fun f => (f.1, some f.2) := by
    apply List.take_of_length_le
    rw [List.length_map, List.length_cons]
  rw [← e]
  exact h

/-! ## What goes wrong -/

/-- One voxel in a grid of `7 × 1 × 1` voxels of 1 mm, at `x = t`. -/
def sevenAt (t : Int) (k : Key) : BinVOX F64 := ⟨7, 1, 1, ofInt t, ofInt 0, ofInt 0, ofInt 7, some [(k, ())], none⟩

theorem valid_one {F : Type} {sch : AddSched} {bv : BinVOX F} {k d : Key} (hw : bv.WhiteVoxels = some [(k, ())]) (hc : bv.ColorVoxels = none)
    (h : sch.Valid bv d.X d.Y d.Z) : sch.ordWhite = [k] ∧ sch.ordColor = [] ∧ sch.ordLookup = [k.shift d.X d.Y d.Z] := by
  have w : bv.white = [(k, ())] := by unfold BinVOX.white; rw [hw]; rfl
  have c : bv.color = [] := by unfold BinVOX.color; rw [hc]; rfl
  refine ⟨?_, ?_, ?_⟩
  · have := h.white
    rw [w] at this
    exact List.perm_singleton.mp this
  · have := h.color
    rw [c] at this
    exact List.perm_nil.mp this
  · apply List.perm_singleton.mp
    rw [List.perm_ext_iff_of_nodup h.nodup (by simp)]
    intro a
    rw [h.lookup, w, c, List.mem_singleton]
    constructor
    · rintro ⟨j, hj | hj, rfl⟩
      · have : k = j := by simpa [GoMap.has, GoMap.get] using hj
        rw [this]
      · simp [GoMap.has, GoMap.get] at hj
    · rintro rfl
      exact ⟨k, Or.inl (by simp [GoMap.has, GoMap.get]), rfl⟩

/-- Adding one voxel that has no neighbour. -/
theorem add_one (cap : Nat) {lookup : GoMap Key Unit} {k : Key} {voxels : List VShVoxel}
    (h : findNeighbors lookup (oldMap voxels) k = (0, [])) : addVoxels cap lookup [k] voxels = voxels ++ [⟨k.X, k.Y, k.Z, 0⟩] := by
  have hne : (0 : NeighborBitMap) ≠ allNeighbors := by decide +kernel
  have hs : addStep cap lookup (oldMap voxels) ⟨voxels, voxels, []⟩ k = ⟨voxels, voxels ++ [⟨k.X, k.Y, k.Z, 0⟩], []⟩ := by
    unfold addStep
    simp only [h, List.foldl_nil]
    exact if_neg hne
  unfold addVoxels
  rw [List.foldl_cons, hs, List.foldl_nil]
  simp

/-- The shell of the first model, for every schedule. -/
theorem new_one {F : Type} [GoFloat F] {sch : AddSched} {bv : BinVOX F} {k : Key} (hw : bv.WhiteVoxels = some [(k, ())]) (hc : bv.ColorVoxels = none)
    (h : sch.Valid bv 0 0 0) (hn : findNeighbors [(k, ())] (oldMap []) k = (0, [])) :
    VShell.New sch bv = some { grown ⟨bv.NX, bv.NY, bv.NZ, bv.TX, bv.TY, bv.TZ, bv.Scale, []⟩ [k] with Voxels := [⟨k.X, k.Y, k.Z, 0⟩] } := by
  have hk : k.shift 0 0 0 = k := by unfold Key.shift; simp
  obtain ⟨h1, h2, h3⟩ := valid_one (d := ⟨0, 0, 0⟩) hw hc h
  unfold VShell.New
  have w : bv.white = [(k, ())] := by unfold BinVOX.white; rw [hw]; rfl
  rw [w]
  have : ([(k, ())] : GoMap Key Unit).length > 0 := by simp
  rw [if_pos this, Add_eq_nil _ _ _ rfl]
  have hm : movedKeys sch ⟨0, 0, 0⟩ = [k] := by
    unfold movedKeys
    rw [h1, h2]
    simp [hk]
  have hl : lookupOf sch ⟨0, 0, 0⟩ = [(k, ())] := by
    unfold lookupOf
    rw [hm]
    rfl
  rw [hm, hl, h3]
  simp only [hk]
  rw [add_one _ hn]
  rfl

/-- Adding a second model of one voxel, for every schedule. -/
theorem add_second {F : Type} [GoFloat F] {sch : AddSched} {vs : VShell F} {bv : BinVOX F} {k e : Key} (hv : vs.Voxels ≠ [])
    (hw : bv.WhiteVoxels = some [(k, ())]) (hc : bv.ColorVoxels = none) (he : displacement vs bv = e) (hnn : NonNeg e)
    (hi : toInt vs.VoxelsPerMM = toInt bv.VoxelsPerMM) (h : sch.Valid bv e.X e.Y e.Z)
    (hn : findNeighbors [(k.shift e.X e.Y e.Z, ())] (oldMap vs.Voxels) (k.shift e.X e.Y e.Z) = (0, [])) :
    vs.Add sch bv = some { grown { vs with TX := minT bv.TX vs.TX, TY := minT bv.TY vs.TY, TZ := minT bv.TZ vs.TZ } [k.shift e.X e.Y e.Z] with
      Voxels := vs.Voxels ++ [⟨(k.shift e.X e.Y e.Z).X, (k.shift e.X e.Y e.Z).Y, (k.shift e.X e.Y e.Z).Z, 0⟩] } := by
  obtain ⟨h1, h2, h3⟩ := valid_one (d := e) hw hc h
  rw [Add_eq _ _ _ hv, if_neg (by rw [hi]; simp), he]
  have hnm : newMove e = e := if_pos hnn
  have hu : updated vs bv = { vs with TX := minT bv.TX vs.TX, TY := minT bv.TY vs.TY, TZ := minT bv.TZ vs.TZ } := by
    unfold updated
    dsimp only
    rw [he, if_pos hnn]
  have hm : movedKeys sch e = [k.shift e.X e.Y e.Z] := by
    unfold movedKeys
    rw [h1, h2]
    rfl
  have hl : lookupOf sch e = [(k.shift e.X e.Y e.Z, ())] := by
    unfold lookupOf
    rw [hm]
    rfl
  rw [hnm, hu, hm, hl, h3]
  rw [add_one _ hn]

theorem merge_two {F : Type} [GoFloat F] {s1 s2 : AddSched} {a b : BinVOX F} {v1 v2 : VShell F} (h1 : VShell.New s1 a = some v1)
    (h2 : v1.Add s2 b = some v2) : VShell.Merge [(s1, some a), (s2, some b)] = some (some v2) := by
  show VShell.mergeStep ((VShell.New s1 a).map some) (s2, some b) = _
  rw [h1]
  show (v1.Add s2 b).map some = _
  rw [h2]
  rfl

theorem merge_three {F : Type} [GoFloat F] {s1 s2 s3 : AddSched} {a b c : BinVOX F} {v1 v2 : VShell F} (h1 : VShell.New s1 a = some v1)
    (h2 : v1.Add s2 b = some v2) : VShell.Merge [(s1, some a), (s2, some b), (s3, some c)] = (v2.Add s3 c).map some := by
  have := merge_two h1 h2
  unfold VShell.Merge at *
  rw [show [(s1, some a), (s2, some b), (s3, some c)] = [(s1, some a), (s2, some b)] ++ [(s3, some c)] from rfl, List.foldl_append, this]
  rfl

/-- **C86 (violated).** Three models of one resolution, 1 voxel per millimetre, at whole millimetres: merging them fails
    for every order of the maps and every capacity, because adjusting the scale for the second model leaves
    0.9999999999999999 voxels per millimetre.  In exact arithmetic the same models merge. -/
theorem merge_fails_f64 (s1 s2 s3 : AddSched) (h1 : s1.Valid (sevenAt 0 ⟨0, 0, 0⟩) 0 0 0)
    (h2 : s2.Valid (sevenAt 22 ⟨6, 0, 0⟩) 22 0 0) :
    VShell.Merge [(s1, some (sevenAt 0 ⟨0, 0, 0⟩)), (s2, some (sevenAt 22 ⟨6, 0, 0⟩)), (s3, some (sevenAt 40 ⟨0, 0, 0⟩))] = none ∧
    ∃ vs, VShell.Merge [(s1, some (exactModel (sevenAt 0 ⟨0, 0, 0⟩))), (s2, some (exactModel (sevenAt 22 ⟨6, 0, 0⟩))),
      (s3, some (exactModel (sevenAt 40 ⟨0, 0, 0⟩)))] = some (some vs) := by
  constructor
  · have e1 := new_one (bv := sevenAt 0 ⟨0, 0, 0⟩) rfl rfl h1 (by decide +kernel)
    have e2 := add_second (sch := s2) (bv := sevenAt 22 ⟨6, 0, 0⟩) (k := ⟨6, 0, 0⟩) (e := ⟨22, 0, 0⟩)
      (vs := { grown ⟨(sevenAt 0 ⟨0, 0, 0⟩).NX, (sevenAt 0 ⟨0, 0, 0⟩).NY, (sevenAt 0 ⟨0, 0, 0⟩).NZ, (sevenAt 0 ⟨0, 0, 0⟩).TX,
        (sevenAt 0 ⟨0, 0, 0⟩).TY, (sevenAt 0 ⟨0, 0, 0⟩).TZ, (sevenAt 0 ⟨0, 0, 0⟩).Scale, []⟩ [⟨0, 0, 0⟩] with Voxels := [⟨0, 0, 0, 0⟩] })
      (by simp) rfl rfl (by decide +kernel) (by decide +kernel) (by decide +kernel) h2 (by decide +kernel)
    rw [merge_three e1 e2, Add_eq _ _ _ (by simp), if_pos (by decide +kernel)]
    rfl
  · have e1 := new_one (bv := exactModel (sevenAt 0 ⟨0, 0, 0⟩)) (k := ⟨0, 0, 0⟩) rfl rfl (sch := s1) ⟨h1.white, h1.color, h1.nodup, h1.lookup⟩ (by decide +kernel)
    have e2 := add_second (sch := s2) (bv := exactModel (sevenAt 22 ⟨6, 0, 0⟩)) (k := ⟨6, 0, 0⟩) (e := ⟨22, 0, 0⟩)
      (vs := { grown ⟨(exactModel (sevenAt 0 ⟨0, 0, 0⟩)).NX, (exactModel (sevenAt 0 ⟨0, 0, 0⟩)).NY, (exactModel (sevenAt 0 ⟨0, 0, 0⟩)).NZ,
        (exactModel (sevenAt 0 ⟨0, 0, 0⟩)).TX, (exactModel (sevenAt 0 ⟨0, 0, 0⟩)).TY, (exactModel (sevenAt 0 ⟨0, 0, 0⟩)).TZ,
        (exactModel (sevenAt 0 ⟨0, 0, 0⟩)).Scale, []⟩ [⟨0, 0, 0⟩] with Voxels := [⟨0, 0, 0, 0⟩] })
      (by simp) rfl rfl (by decide +kernel) (by decide +kernel) (by decide +kernel) ⟨h2.white, h2.color, h2.nodup, h2.lookup⟩ (by decide +kernel)
    rw [merge_three e1 e2, Add_eq _ _ _ (by simp), if_neg (by decide +kernel)]
    exact ⟨_, rfl⟩

/-- One voxel of 0.1 mm at `x = t`. -/
def tenthAt (t : ℚ) : BinVOX F64 := ⟨1, 1, 1, of t, ofInt 0, ofInt 0, of (1 / 10), some [(⟨0, 0, 0⟩, ())], none⟩

/-- **C86 (violated).** A voxel of 0.1 mm at 0.2 mm and one at 0.3 mm, merged: the second is put on top of the first, not
    beside it, because `(0.3 - 0.2) * 10` is 0.9999999999999998; the shell lists one position twice. -/
theorem merge_overlays_f64 (s1 s2 : AddSched) (h1 : s1.Valid (tenthAt (2 / 10)) 0 0 0) (h2 : s2.Valid (tenthAt (3 / 10)) 0 0 0) :
    ∃ vs, VShell.Merge [(s1, some (tenthAt (2 / 10))), (s2, some (tenthAt (3 / 10)))] = some (some vs) ∧
      vs.Voxels = [⟨0, 0, 0, 0⟩, ⟨0, 0, 0, 0⟩] := by
  have e1 := new_one (bv := tenthAt (2 / 10)) rfl rfl h1 (by decide +kernel)
  have e2 := add_second (sch := s2) (bv := tenthAt (3 / 10)) (k := ⟨0, 0, 0⟩) (e := ⟨0, 0, 0⟩)
      (vs := { grown ⟨(tenthAt (2 / 10)).NX, (tenthAt (2 / 10)).NY, (tenthAt (2 / 10)).NZ, (tenthAt (2 / 10)).TX,
        (tenthAt (2 / 10)).TY, (tenthAt (2 / 10)).TZ, (tenthAt (2 / 10)).Scale, []⟩ [⟨0, 0, 0⟩] with Voxels := [⟨0, 0, 0, 0⟩] })
      (by simp) rfl rfl (by decide +kernel) (by decide +kernel) (by decide +kernel) h2 (by decide +kernel)
  exact ⟨_, merge_two e1 e2, rfl⟩

/-! ## Examples -/

def oneSch (k d : Key) : AddSched := ⟨[k], [], [k.shift d.X d.Y d.Z], 100⟩

theorem oneSch_valid {F : Type} {bv : BinVOX F} {k : Key} (d : Key) (hw : bv.WhiteVoxels = some [(k, ())]) (hc : bv.ColorVoxels = none) :
    (oneSch k d).Valid bv d.X d.Y d.Z := by
  have w : bv.white = [(k, ())] := by unfold BinVOX.white; rw [hw]; rfl
  have c : bv.color = [] := by unfold BinVOX.color; rw [hc]; rfl
  refine ⟨by rw [w]; exact List.Perm.refl _, by rw [c]; exact List.Perm.refl _, List.nodup_singleton _, fun a => ?_⟩
  rw [w, c]
  unfold oneSch
  rw [List.mem_singleton]
  constructor
  · rintro rfl
    exact ⟨k, Or.inl (by simp [GoMap.has, GoMap.get]), rfl⟩
  · rintro ⟨j, hj | hj, rfl⟩
    · have : k = j := by simpa [GoMap.has, GoMap.get] using hj
      rw [this]
    · simp [GoMap.has, GoMap.get] at hj

/-- The two failures do happen: there are such schedules. -/
example : VShell.Merge [(oneSch ⟨0, 0, 0⟩ ⟨0, 0, 0⟩, some (sevenAt 0 ⟨0, 0, 0⟩)), (oneSch ⟨6, 0, 0⟩ ⟨22, 0, 0⟩, some (sevenAt 22 ⟨6, 0, 0⟩)),
    (oneSch ⟨0, 0, 0⟩ ⟨40, 0, 0⟩, some (sevenAt 40 ⟨0, 0, 0⟩))] = none :=
  (merge_fails_f64 _ _ _ (oneSch_valid ⟨0, 0, 0⟩ rfl rfl) (oneSch_valid ⟨22, 0, 0⟩ rfl rfl)).1

example : ∃ vs, VShell.Merge [(oneSch ⟨0, 0, 0⟩ ⟨0, 0, 0⟩, some (tenthAt (2 / 10))), (oneSch ⟨0, 0, 0⟩ ⟨0, 0, 0⟩, some (tenthAt (3 / 10)))] =
    some (some vs) ∧ vs.Voxels = [⟨0, 0, 0, 0⟩, ⟨0, 0, 0, 0⟩] :=
  merge_overlays_f64 _ _ (oneSch_valid ⟨0, 0, 0⟩ rfl rfl) (oneSch_valid ⟨0, 0, 0⟩ rfl rfl)

/-- A shell at 0 and a model at 22 mm, 1 voxel per millimetre. -/
example : displacement ⟨7, 1, 1, ofInt 0, ofInt 0, ofInt 0, ofInt 7, []⟩ (sevenAt 22 ⟨6, 0, 0⟩) = ⟨22, 0, 0⟩ :=
  displacement_f64_exact (by rw [mem_iff]; decide +kernel) (by rw [mem_iff]; decide +kernel) (by rw [mem_iff]; decide +kernel)
    (by decide +kernel) (by decide +kernel) (by decide +kernel) (by decide +kernel)

/-- One voxel in a grid of three voxels in 2 mm, at `x = t`: 1.5 voxels per millimetre. -/
def threeAt (t : Int) : BinVOX F64 := ⟨3, 1, 1, ofInt t, ofInt 0, ofInt 0, ofInt 2, some [(⟨2, 0, 0⟩, ())], none⟩

/-- Two such models merge, by the theorem on success; the theorem on the resolution applies. -/
example : ∃ vs, VShell.Merge [(oneSch ⟨2, 0, 0⟩ ⟨0, 0, 0⟩, some (threeAt 0)), (oneSch ⟨2, 0, 0⟩ ⟨6, 0, 0⟩, some (threeAt 4))] = some (some vs) ∧
    |vs.VoxelsPerMM.val - 3 / 2| ≤ 2 * (3 / 2 / 2 ^ 48) := by
  have hv : (threeAt 0).VoxelsPerMM.val = 3 / 2 := by decide +kernel
  have b1 : (2 : ℚ) ^ (-398 : Int) ≤ 3 / 2 :=
    le_trans (zpow_le_zpow_right₀ (by norm_num) (by norm_num : (-398 : Int) ≤ 0)) (by norm_num)
  have b2 : (3 / 2 : ℚ) ≤ 2 ^ (398 : Int) :=
    le_trans (by norm_num : (3 / 2 : ℚ) ≤ 2 ^ (1 : Int)) (zpow_le_zpow_right₀ (by norm_num) (by norm_num))
  have e1 := new_one (sch := oneSch ⟨2, 0, 0⟩ ⟨0, 0, 0⟩) (bv := threeAt 0) rfl rfl (oneSch_valid ⟨0, 0, 0⟩ rfl rfl) (by decide +kernel)
  have e2 := add_second (sch := oneSch ⟨2, 0, 0⟩ ⟨6, 0, 0⟩) (bv := threeAt 4) (k := ⟨2, 0, 0⟩) (e := ⟨6, 0, 0⟩)
    (vs := { grown ⟨(threeAt 0).NX, (threeAt 0).NY, (threeAt 0).NZ, (threeAt 0).TX, (threeAt 0).TY, (threeAt 0).TZ, (threeAt 0).Scale, []⟩
      [⟨2, 0, 0⟩] with Voxels := [⟨2, 0, 0, 0⟩] })
    (by simp) rfl rfl (by decide +kernel) (by decide +kernel) (by decide +kernel) (oneSch_valid ⟨6, 0, 0⟩ rfl rfl) (by decide +kernel)
  have m2 := merge_two e1 e2
  have m1 : VShell.Merge [(oneSch ⟨2, 0, 0⟩ ⟨0, 0, 0⟩, some (threeAt 0))] = (VShell.New (oneSch ⟨2, 0, 0⟩ ⟨0, 0, 0⟩) (threeAt 0)).map some := rfl
  obtain ⟨vs, h⟩ := merge_succeeds_f64 (oneSch ⟨2, 0, 0⟩ ⟨0, 0, 0⟩, threeAt 0) [(oneSch ⟨2, 0, 0⟩ ⟨6, 0, 0⟩, threeAt 4)] 1 (by norm_num)
    (by decide +kernel) (by decide +kernel) (by rw [hv]; exact b1) (by rw [hv]; exact b2) (by norm_num)
    (by rw [hv]; norm_num) (by rw [hv]; norm_num) (by decide +kernel) (by
      intro i vs h
      rcases i with _ | _ | n
      · cases h
      · rw [show ((((oneSch ⟨2, 0, 0⟩ ⟨0, 0, 0⟩, threeAt 0) :: [(oneSch ⟨2, 0, 0⟩ ⟨6, 0, 0⟩, threeAt 4)]).map
          fun f : AddSched × BinVOX F64 => (f.1, some f.2)).take 1) = [(oneSch ⟨2, 0, 0⟩ ⟨0, 0, 0⟩, some (threeAt 0))] from rfl, m1, e1] at h
        cases h
        decide +kernel
      · rw [show ((((oneSch ⟨2, 0, 0⟩ ⟨0, 0, 0⟩, threeAt 0) :: [(oneSch ⟨2, 0, 0⟩ ⟨6, 0, 0⟩, threeAt 4)]).map
          fun f : AddSched × BinVOX F64 => (f.1, some f.2)).take (n + 2)) = [(oneSch ⟨2, 0, 0⟩ ⟨0, 0, 0⟩, some (threeAt 0)),
            (oneSch ⟨2, 0, 0⟩ ⟨6, 0, 0⟩, some (threeAt 4))] by simp, m2] at h
        cases h
        decide +kernel)
  have h' : VShell.Merge [(oneSch ⟨2, 0, 0⟩ ⟨0, 0, 0⟩, some (threeAt 0)), (oneSch ⟨2, 0, 0⟩ ⟨6, 0, 0⟩, some (threeAt 4))] = some (some vs) := h
  refine ⟨vs, h', ?_⟩
  rw [← hv]
  have hdim : vs.Dim ≤ 2 ^ 53 := by
    rw [m2] at h'
    cases h'
    decide +kernel
  have := merge_resolution_f64 (oneSch ⟨2, 0, 0⟩ ⟨0, 0, 0⟩, threeAt 0) [(oneSch ⟨2, 0, 0⟩ ⟨6, 0, 0⟩, some (threeAt 4))] vs
    (by decide +kernel) (by decide +kernel) (by rw [hv]; exact b1) (by rw [hv]; exact b2) (by norm_num) h' hdim
  exact this

/-- `add_resolution_f64` on the step that adds the second model. -/
example : ∃ vs', (⟨3, 1, 1, ofInt 0, ofInt 0, ofInt 0, ofInt 2, [⟨2, 0, 0, 0⟩]⟩ : VShell F64).Add (oneSch ⟨2, 0, 0⟩ ⟨6, 0, 0⟩) (threeAt 4) = some vs' ∧
    |vs'.VoxelsPerMM.val - 3 / 2| ≤ 3 / 2 / 2 ^ 49 := by
  have hv : (VShell.VoxelsPerMM (⟨3, 1, 1, ofInt 0, ofInt 0, ofInt 0, ofInt 2, [⟨2, 0, 0, 0⟩]⟩ : VShell F64)).val = 3 / 2 := by decide +kernel
  have e2 := add_second (sch := oneSch ⟨2, 0, 0⟩ ⟨6, 0, 0⟩) (bv := threeAt 4) (k := ⟨2, 0, 0⟩) (e := ⟨6, 0, 0⟩)
    (vs := ⟨3, 1, 1, ofInt 0, ofInt 0, ofInt 0, ofInt 2, [⟨2, 0, 0, 0⟩]⟩)
    (by simp) rfl rfl (by decide +kernel) (by decide +kernel) (by decide +kernel) (oneSch_valid ⟨6, 0, 0⟩ rfl rfl) (by decide +kernel)
  have := (add_resolution_f64 _ _ _ _ (by decide +kernel) (by decide +kernel)
    (by rw [hv]; exact le_trans (zpow_le_zpow_right₀ (by norm_num) (by norm_num : (-399 : Int) ≤ 0)) (by norm_num))
    (by rw [hv]; exact le_trans (by norm_num : (3 / 2 : ℚ) ≤ 2 ^ (1 : Int)) (zpow_le_zpow_right₀ (by norm_num) (by norm_num)))
    (by decide +kernel) e2).1
  rw [hv] at this
  exact ⟨_, e2, this⟩

end StlDice
