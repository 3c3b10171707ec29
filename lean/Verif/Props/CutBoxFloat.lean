import Verif.Lemmas.CutFloat
import Verif.Props.VoxelizeFloat
import Verif.Props.VoxcutDice

/-!
# C88: the boxes of binvox-dice in float64
-/

namespace StlDice

open GoFloat F64 Spec

/-- An increasing chain of cuts cuts the interval between its ends into intervals that share no point. -/
theorem chain_tiles {c : Int → ℚ} {f : Int} (hf : 0 ≤ f) (mono : ∀ i j, 0 ≤ i → i ≤ j → j ≤ f → c i ≤ c j) (x : ℚ) :
    (c 0 ≤ x ∧ x < c f) ↔ ∃ i ∈ intRange 0 f, (c i ≤ x ∧ x < c (i + 1)) ∧
      ∀ j ∈ intRange 0 f, c j ≤ x ∧ x < c (j + 1) → j = i := by
  constructor
  · rintro ⟨h0, h1⟩
    have ex : ∃ n : Nat, (n : Int) ≤ f ∧ x < c n := ⟨f.toNat, by omega, by rw [Int.toNat_of_nonneg hf]; exact h1⟩
    obtain ⟨hn, hx⟩ := Nat.find_spec ex
    have hmin : ∀ m, m < Nat.find ex → ¬ ((m : Int) ≤ f ∧ x < c m) := fun m h => Nat.find_min ex h
    generalize Nat.find ex = n at *
    cases n with
    | zero => exact absurd hx (not_lt.mpr h0)
    | succ n =>
      have hc : c n ≤ x := by
        by_contra hcon
        exact hmin n (Nat.lt_succ_self n) ⟨by push_cast at hn; omega, not_le.mp hcon⟩
      push_cast at hn hx
      refine ⟨n, (mem_intRange _ _ _).mpr ⟨by omega, by omega⟩, ⟨hc, hx⟩, fun j hj h => ?_⟩
      obtain ⟨j0, j1⟩ := (mem_intRange _ _ _).mp hj
      rcases lt_trichotomy j n with k | k | k
      · exact absurd (h.2.trans_le ((mono (j + 1) n (by omega) (by omega) (by omega)).trans hc)) (lt_irrefl _)
      · exact k
      · exact absurd (hx.trans_le ((mono (n + 1) j (by omega) (by omega) (by omega)).trans h.1)) (lt_irrefl _)
  · rintro ⟨i, hi, ⟨a, b⟩, -⟩
    obtain ⟨i0, i1⟩ := (mem_intRange _ _ _).mp hi
    exact ⟨(mono 0 i (le_refl _) i0 (by omega)).trans a, b.trans_le (mono (i + 1) f (by omega) (by omega) (le_refl _))⟩

theorem cutAt_val {lo hi : F64} {f i : Int} (hf : |f| ≤ 2 ^ 53) (hi' : |i| ≤ 2 ^ 53) :
    (cutAt lo hi f i).val = rnd (lo.val + rnd (rnd (hi.val - lo.val) * rnd ((i : ℚ) / f))) := by
  show rnd (lo.val + rnd (rnd (hi.val - lo.val) * rnd ((ofInt i : F64).val / (ofInt f : F64).val))) = _
  rw [show (ofInt i : F64).val = i from of_exact (binary64_int hi'), show (ofInt f : F64).val = f from of_exact (binary64_int hf)]

/-- **C88.** In float64 the boxes of binvox-dice start exactly at the lower bound, never overlap and leave no gap: along
    an axis every point from the lower bound up to the end of the last box is in exactly one of them.  The end of the
    last box is the upper bound rounded twice: it is the upper bound if the length of the box is a float64 (for instance
    if the lower bound is 0), and is never off by more than `(|lo|+|hi|)/2^51`. -/
theorem cuts_f64 {lo hi : F64} {f : Int} (hf : 1 ≤ f) (hf2 : f ≤ 2 ^ 53) (hl : lo.val ≤ hi.val) :
    cutAt lo hi f 0 = lo ∧
    (∀ i j : Int, 0 ≤ i → i ≤ j → j ≤ f → (cutAt lo hi f i).val ≤ (cutAt lo hi f j).val) ∧
    (∀ x : ℚ, (lo.val ≤ x ∧ x < (cutAt lo hi f f).val) ↔
      ∃ i ∈ intRange 0 f, ((cutAt lo hi f i).val ≤ x ∧ x < (cutAt lo hi f (i + 1)).val) ∧
        ∀ j ∈ intRange 0 f, (cutAt lo hi f j).val ≤ x ∧ x < (cutAt lo hi f (j + 1)).val → j = i) ∧
    (Binary64 (hi.val - lo.val) → cutAt lo hi f f = hi) ∧
    |(cutAt lo hi f f).val - hi.val| ≤ (|lo.val| + |hi.val|) / 2 ^ 51 := by
  have hq : (0 : ℚ) < f := by exact_mod_cast hf
  have hfa : |f| ≤ 2 ^ 53 := by rw [abs_of_pos (by omega)]; exact hf2
  have e0 : cutAt lo hi f 0 = lo := by
    apply F64.ext
    rw [cutAt_val hfa (by norm_num), Int.cast_zero, zero_div, rnd_zero, mul_zero, rnd_zero, add_zero]
    exact lo.rep
  have mono : ∀ i j : Int, 0 ≤ i → i ≤ j → j ≤ f → (cutAt lo hi f i).val ≤ (cutAt lo hi f j).val := by
    intro i j h0 h1 h2
    rw [cutAt_val hfa (by rw [abs_of_nonneg h0]; omega), cutAt_val hfa (by rw [abs_of_nonneg (h0.trans h1)]; omega)]
    refine rnd_mono (add_le_add (le_refl _) (rnd_mono (mul_le_mul_of_nonneg_left (rnd_mono ?_) (rnd_nonneg (sub_nonneg.mpr hl)))))
    exact div_le_div_of_nonneg_right (by exact_mod_cast h1) hq.le
  have last : (cutAt lo hi f f).val = rnd (lo.val + rnd (hi.val - lo.val)) := by
    rw [cutAt_val hfa hfa, div_self hq.ne', rnd_of_mem (x := 1) ⟨1, 0, by norm_num, by norm_num, by norm_num⟩, mul_one,
      rnd_of_mem (rnd_mem _)]
  refine ⟨e0, mono, fun x => ?_, fun h => ?_, ?_⟩
  · have := chain_tiles (c := fun i => (cutAt lo hi f i).val) (by omega) mono x
    rw [e0] at this
    exact this
  · apply F64.ext
    rw [last, rnd_of_mem h, add_sub_cancel]
    exact hi.rep
  · rw [last]
    have a1 := add_error (val_mem hi) (binary64_neg (val_mem lo))
    rw [← sub_eq_add_neg] at a1
    have a2 := add_error (val_mem lo) (rnd_mem (hi.val - lo.val))
    have t1 : |hi.val - lo.val| ≤ |hi.val| + |lo.val| := abs_sub _ _
    generalize rnd (hi.val - lo.val) = s at *
    generalize rnd (lo.val + s) = z at *
    generalize hi.val = h at *
    generalize lo.val = l at *
    have t2 : |l + s| ≤ |h| + |s - (h - l)| := by
      have : l + s = h + (s - (h - l)) := by ring
      rw [this]
      exact abs_add_le _ _
    have t3 : |z - h| ≤ |z - (l + s)| + |s - (h - l)| := by
      have : z - h = (z - (l + s)) + (s - (h - l)) := by ring
      rw [this]
      exact abs_add_le _ _
    have h0 := abs_nonneg h
    have l0 := abs_nonneg l
    linarith

/-- **C88.** All bounds binvox-dice prints are those of the exact cuts up to `R/2^49` (and the smallest float64) where `R`
    bounds the coordinates of the model. -/
theorem cuts_f64_near {lo hi : F64} {f i : Int} {R : ℚ} (hf : 1 ≤ f) (hf2 : f ≤ 2 ^ 53) (h1 : |lo.val| ≤ R) (h2 : |hi.val| ≤ R)
    (hi0 : 0 ≤ i) (hi1 : i ≤ f) :
    |(cutAt lo hi f i).val - (lo.val + (hi.val - lo.val) * (i / f))| ≤ R / 2 ^ 49 + 2 ^ (-1074 : Int) := by
  have hq : (0 : ℚ) < f := by exact_mod_cast hf
  rw [cutAt_val (by rw [abs_of_pos (by omega)]; exact hf2) (by rw [abs_of_nonneg hi0]; omega)]
  have R0 : 0 ≤ R := (abs_nonneg _).trans h1
  have i0 : (0 : ℚ) ≤ i := by exact_mod_cast hi0
  have t0 : (0 : ℚ) ≤ (i : ℚ) / f := by positivity
  have t1 : (i : ℚ) / f ≤ 1 := by rw [div_le_one hq]; exact_mod_cast hi1
  have one : Binary64 1 := ⟨1, 0, by norm_num, by norm_num, by norm_num⟩
  have et : |rnd ((i : ℚ) / f) - i / f| ≤ 1 / 2 ^ 53 := by
    rcases eq_or_lt_of_le hi0 with h | h
    · rw [← h, Int.cast_zero, zero_div, rnd_zero, sub_zero, abs_zero]; norm_num
    · have b : (2 : ℚ) ^ (-1022 : Int) ≤ |(i : ℚ) / f| := by
        rw [abs_of_nonneg t0, le_div_iff₀ hq]
        have i1 : (1 : ℚ) ≤ i := by exact_mod_cast h
        have f2 : (f : ℚ) ≤ 2 ^ (53 : Int) := by exact_mod_cast hf2
        refine le_trans (mul_le_mul_of_nonneg_left f2 (by positivity)) (le_trans ?_ i1)
        rw [← zpow_add₀ (by norm_num)]
        exact zpow_le_one_of_nonpos₀ (by norm_num) (by norm_num)
      have := rnd_error b
      rw [abs_of_nonneg t0] at this
      exact this.trans (div_le_div_of_nonneg_right t1 (by norm_num))
  have r0 : 0 ≤ rnd ((i : ℚ) / f) := rnd_nonneg t0
  have r1 : rnd ((i : ℚ) / f) ≤ 1 := rnd_le_of t1 one
  have a1 := add_error (val_mem hi) (binary64_neg (val_mem lo))
  rw [← sub_eq_add_neg] at a1
  have a2 := rnd_error_abs (rnd (hi.val - lo.val) * rnd ((i : ℚ) / f))
  have a3 := add_error (val_mem lo) (rnd_mem (rnd (hi.val - lo.val) * rnd ((i : ℚ) / f)))
  have d1 : |hi.val - lo.val| ≤ 2 * R := (abs_sub _ _).trans (by linarith)
  have tiny : (2 : ℚ) ^ (-1075 : Int) * 2 = 2 ^ (-1074 : Int) := by
    rw [← zpow_add_one₀ (by norm_num)]; norm_num
  have tiny0 : (0 : ℚ) ≤ 2 ^ (-1075 : Int) := by positivity
  rw [← tiny]
  generalize (2 : ℚ) ^ (-1075 : Int) = w at *
  generalize rnd ((i : ℚ) / f) = r at *
  generalize (i : ℚ) / f = t at *
  generalize rnd (hi.val - lo.val) = s at *
  generalize hi.val = h at *
  generalize lo.val = l at *
  generalize hp : rnd (s * r) = p at *
  generalize rnd (l + p) = z at *
  clear hp one tiny
  have s1 : |s| ≤ 2 * R + 2 * R / 2 ^ 53 := by
    have : s = (s - (h - l)) + (h - l) := by ring
    rw [this]
    refine (abs_add_le _ _).trans ?_
    linarith
  have sr : |s * r| ≤ 2 * R + 2 * R / 2 ^ 53 := by
    rw [abs_mul, abs_of_nonneg r0]
    exact (mul_le_of_le_one_right (abs_nonneg _) r1).trans s1
  have c1 : |s * r - (h - l) * t| ≤ 2 * R / 2 ^ 53 + 2 * R / 2 ^ 53 := by
    have : s * r - (h - l) * t = (s - (h - l)) * r + (h - l) * (r - t) := by ring
    rw [this]
    refine (abs_add_le _ _).trans ?_
    rw [abs_mul, abs_mul, abs_of_nonneg r0]
    have u1 := mul_le_of_le_one_right (abs_nonneg (s - (h - l))) r1
    have u2 := mul_le_mul d1 et (abs_nonneg _) (by linarith)
    linarith
  have c2 : |p - (h - l) * t| ≤ |p - s * r| + |s * r - (h - l) * t| := by
    have : p - (h - l) * t = (p - s * r) + (s * r - (h - l) * t) := by ring
    rw [this]
    exact abs_add_le _ _
  have ht : |(h - l) * t| ≤ 2 * R := by
    rw [abs_mul, abs_of_nonneg t0]
    exact (mul_le_of_le_one_right (abs_nonneg _) t1).trans d1
  have c3 : |l + p| ≤ R + 2 * R + |p - (h - l) * t| := by
    have : l + p = l + ((h - l) * t + (p - (h - l) * t)) := by ring
    rw [this]
    refine (abs_add_le _ _).trans ?_
    have := abs_add_le ((h - l) * t) (p - (h - l) * t)
    linarith
  have c4 : |z - (l + (h - l) * t)| ≤ |z - (l + p)| + |p - (h - l) * t| := by
    have : z - (l + (h - l) * t) = (z - (l + p)) + (p - (h - l) * t) := by ring
    rw [this]
    exact abs_add_le _ _
  linarith

/-- A model from -5 mm to -1.7 mm along an axis. -/
def shortLo : F64 := of (-5)
def shortHi : F64 := of (-17 / 10)

/-- **C88 (violated).** The last box need not reach the upper bound: a model from -5 to -1.7 mm is cut, whatever the number
    of boxes, up to -1.7000000000000002 mm only, and that point of the model is in none of the boxes. -/
theorem cuts_f64_short {f : Int} (hf : 1 ≤ f) (hf2 : f ≤ 2 ^ 53) :
    ∃ x : F64, shortLo.val ≤ x.val ∧ x.val < shortHi.val ∧
      ∀ i ∈ intRange 0 f, ¬ ((cutAt shortLo shortHi f i).val ≤ x.val ∧ x.val < (cutAt shortLo shortHi f (i + 1)).val) := by
  have hfa : |f| ≤ 2 ^ 53 := by rw [abs_of_pos (by omega)]; exact hf2
  have hq : (0 : ℚ) < f := by exact_mod_cast hf
  have last : (cutAt shortLo shortHi f f).val = rnd (shortLo.val + rnd (shortHi.val - shortLo.val)) := by
    rw [cutAt_val hfa hfa, div_self hq.ne', rnd_of_mem (x := 1) ⟨1, 0, by norm_num, by norm_num, by norm_num⟩, mul_one,
      rnd_of_mem (rnd_mem _)]
  have c1 : rnd (shortLo.val + rnd (shortHi.val - shortLo.val)) < shortHi.val := by decide +kernel
  have c2 : shortLo.val ≤ rnd (shortLo.val + rnd (shortHi.val - shortLo.val)) := by decide +kernel
  obtain ⟨-, mono, -⟩ := cuts_f64 (lo := shortLo) (hi := shortHi) hf hf2 (by decide +kernel)
  refine ⟨cutAt shortLo shortHi f f, by rw [last]; exact c2, by rw [last]; exact c1, fun i hi h => ?_⟩
  obtain ⟨i0, i1⟩ := (mem_intRange _ _ _).mp hi
  exact absurd (mono (i + 1) f (by omega) (by omega) (le_refl _)) (not_le.mpr h.2)

/-- A model whose boxes do reach the upper bound: 0 to 1.7 mm, three boxes. -/
example : cutAt (of 0) (of (17 / 10)) 3 3 = of (17 / 10) := by decide +kernel

/-- ... and one whose last box ends beyond it: -5 to -1.8 mm. -/
example : (of (-18 / 10)).val < (cutAt (of (-5)) (of (-18 / 10)) 3 3).val := by decide +kernel

example := cuts_f64 (lo := ofInt 0) (hi := ofInt 1) (f := 3) (by decide) (by norm_num) (by decide +kernel)
example := cuts_f64_near (lo := ofInt 0) (hi := ofInt 1) (f := 3) (i := 2) (R := 1) (by decide) (by norm_num) (by decide +kernel) (by decide +kernel)
  (by decide) (by decide)
example := cuts_f64_short (f := 3) (by decide) (by norm_num)

end StlDice
