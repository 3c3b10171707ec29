import Verif.Model.FloatText
import Verif.Lemmas.Text
import Verif.Lemmas.Float64
import Verif.Lemmas.CutFloat

/-! # Shortest decimals for float64 -/

namespace StlDice

open Spec

namespace F64

theorem pow10_eq (e : Int) : pow10 e = (10 : ℚ) ^ e := by
  cases e with
  | ofNat n => simp [pow10]
  | negSucc n =>
    rw [pow10, Rat.mkRat_eq_div]
    simp [zpow_negSucc]

theorem natDigitsRev_length (fuel n : Nat) (h : n < fuel) :
    n < 10 ^ (natDigitsRev fuel n).length ∧ (1 ≤ n → 10 ^ ((natDigitsRev fuel n).length - 1) ≤ n) ∧
      1 ≤ (natDigitsRev fuel n).length := by
  induction fuel generalizing n with
  | zero => omega
  | succ fuel ih =>
    unfold natDigitsRev
    split
    · rename_i hn
      simp only [List.length_singleton]
      exact ⟨by omega, by omega, le_refl _⟩
    · rename_i hn
      obtain ⟨a, b, c⟩ := ih (n / 10) (by omega)
      rw [List.length_cons, Nat.add_sub_cancel]
      generalize (natDigitsRev fuel (n / 10)).length = l at *
      have b := b (by omega)
      have e : 10 ^ l = 10 * 10 ^ (l - 1) := by
        conv_lhs => rw [show l = (l - 1) + 1 by omega, pow_succ, mul_comm]
      refine ⟨?_, fun _ => ?_, by omega⟩
      · rw [pow_succ]; omega
      · rw [e]; omega

theorem fmtNat_length (n : Nat) : n < 10 ^ (fmtNat n).length ∧ (1 ≤ n → 10 ^ ((fmtNat n).length - 1) ≤ n) ∧ 1 ≤ (fmtNat n).length := by
  unfold fmtNat
  rw [List.length_reverse]
  exact natDigitsRev_length _ _ (by omega)

theorem fmtNat_length_eq {c n : Nat} (hn : 1 ≤ n) (h1 : 10 ^ (n - 1) ≤ c) (h2 : c < 10 ^ n) : (fmtNat c).length = n := by
  obtain ⟨a, b, d⟩ := fmtNat_length c
  have c1 : 1 ≤ c := le_trans (Nat.one_le_pow _ _ (by norm_num)) h1
  have b := b c1
  have u1 := (Nat.pow_lt_pow_iff_right (by norm_num : 1 < 10)).mp (lt_of_le_of_lt h1 a)
  have u2 := (Nat.pow_lt_pow_iff_right (by norm_num : 1 < 10)).mp (lt_of_le_of_lt b h2)
  omega

theorem ilog10_spec {q : ℚ} (hq : 0 < q) : (10 : ℚ) ^ (ilog10 q - 1) ≤ q ∧ q < (10 : ℚ) ^ ilog10 q := by
  have hn : 1 ≤ q.num.natAbs := by
    have := Rat.num_pos.mpr hq
    omega
  obtain ⟨n2, n1, n0⟩ := fmtNat_length q.num.natAbs
  obtain ⟨d2, d1, d0⟩ := fmtNat_length q.den
  have n1 := n1 hn
  have d1 := d1 q.den_pos
  have hqe : q = (q.num.natAbs : ℚ) / q.den := by
    conv_lhs => rw [← Rat.num_div_den q]
    rw [Nat.cast_natAbs, Int.cast_abs, abs_of_pos (by exact_mod_cast Rat.num_pos.mpr hq)]
  have hdpos : (0 : ℚ) < q.den := by exact_mod_cast q.den_pos
  unfold ilog10
  simp only [pow10_eq]
  generalize (fmtNat q.num.natAbs).length = a at *
  generalize (fmtNat q.den).length = b at *
  have n1' : (10 : ℚ) ^ ((a : Int) - 1) ≤ q.num.natAbs := by
    rw [show ((a : Int) - 1) = ((a - 1 : Nat) : Int) by omega, zpow_natCast]; exact_mod_cast n1
  have n2' : (q.num.natAbs : ℚ) < (10 : ℚ) ^ (a : Int) := by
    rw [zpow_natCast]; exact_mod_cast n2
  have d1' : (10 : ℚ) ^ ((b : Int) - 1) ≤ q.den := by
    rw [show ((b : Int) - 1) = ((b - 1 : Nat) : Int) by omega, zpow_natCast]; exact_mod_cast d1
  have d2' : (q.den : ℚ) < (10 : ℚ) ^ (b : Int) := by
    rw [zpow_natCast]; exact_mod_cast d2
  clear n1 n2 d1 d2 n0 d0
  generalize (q.num.natAbs : ℚ) = u at *
  generalize (q.den : ℚ) = v at *
  generalize (a : Int) = a at *
  generalize (b : Int) = b at *
  have p : ∀ e : Int, (0 : ℚ) < 10 ^ e := fun e => by positivity
  have up : q < (10 : ℚ) ^ (a - b + 1) := by
    rw [hqe, div_lt_iff₀ hdpos]
    calc u < 10 ^ a := n2'
      _ = 10 ^ (a - b + 1) * 10 ^ (b - 1) := by rw [← zpow_add₀ (by norm_num)]; congr 1; omega
      _ ≤ _ := mul_le_mul_of_nonneg_left d1' (p _).le
  have lo : (10 : ℚ) ^ (a - b - 1) ≤ q := by
    rw [hqe, le_div_iff₀ hdpos]
    calc (10 : ℚ) ^ (a - b - 1) * v ≤ 10 ^ (a - b - 1) * 10 ^ b := mul_le_mul_of_nonneg_left d2'.le (p _).le
      _ = 10 ^ (a - 1) := by rw [← zpow_add₀ (by norm_num)]; congr 1; omega
      _ ≤ _ := n1'
  split
  · exact ⟨lo, by assumption⟩
  · rename_i h
    push Not at h
    exact ⟨by rw [Int.add_sub_cancel]; exact h, up⟩

/-- Two different float64 numbers are not too close. -/
theorem gap {x z : ℚ} (hx : Binary64 x) (hz : Binary64 z) (h : x ≠ z) : |x| / 2 ^ 53 ≤ |z - x| ∨ |z| / 2 ^ 53 ≤ |z - x| := by
  obtain ⟨g, m, n, -, rfl, rfl, hb⟩ := common hx hz
  have p : (0 : ℚ) < 2 ^ g := by positivity
  have hmn : m ≠ n := fun e => h (by rw [e])
  have one : (1 : ℚ) ≤ |(n : ℚ) - m| := by
    have : (1 : Int) ≤ |n - m| := Int.one_le_abs (sub_ne_zero.mpr (Ne.symm hmn))
    exact_mod_cast this
  have d : (2 : ℚ) ^ g ≤ |(n : ℚ) * 2 ^ g - m * 2 ^ g| := by
    rw [← sub_mul, abs_mul, abs_of_pos p]
    exact le_mul_of_one_le_left p.le one
  have key : ∀ k : Int, |k| ≤ 2 ^ 53 → |(k : ℚ) * 2 ^ g| / 2 ^ 53 ≤ 2 ^ g := by
    intro k hk
    rw [abs_mul, abs_of_pos p, div_le_iff₀ (by norm_num), mul_comm]
    refine mul_le_mul_of_nonneg_left ?_ p.le
    exact_mod_cast hk
  rcases hb with hb | hb
  · exact .inl ((key m hb).trans d)
  · exact .inr ((key n hb).trans d)

/-- A decimal with 17 digits is close enough to be read back. -/
theorem rnd_close {x y : ℚ} (hx : Binary64 x) (hq : 0 < x) (h : |y - x| ≤ x * (5 / 10 ^ 17)) : rnd y = x := by
  by_contra hne
  have n1 := rnd_nearest y hx
  have hz := rnd_mem y
  have t : |rnd y - x| ≤ |y - rnd y| + |y - x| := by
    have : rnd y - x = -(y - rnd y) + (y - x) := by ring
    rw [this]
    refine (abs_add_le _ _).trans ?_
    rw [abs_neg]
  rcases gap hx hz (Ne.symm hne) with g | g
  · rw [abs_of_pos hq] at g
    linarith
  · have : x - |rnd y - x| ≤ |rnd y| := by
      have := abs_sub_abs_le_abs_sub x (rnd y)
      rw [abs_of_pos hq, abs_sub_comm] at this
      linarith
    linarith

theorem rne_cases (s : ℚ) : rne s = s.floor ∨ rne s = s.floor + 1 := by
  unfold rne
  split
  · exact .inl rfl
  · split
    · exact .inr rfl
    · split
      · exact .inl rfl
      · exact .inr rfl

section
variable {q : ℚ} {k : Int} {n : Nat}

/-- What `digitsFor` finds. -/
theorem digitsFor_sound {c : Nat} (h1 : (10 : ℚ) ^ (k - 1) ≤ q) (h2 : q < 10 ^ k) (hn : 1 ≤ n) (h : digitsFor q k n = some c) :
    rnd ((c : ℚ) * 10 ^ (k - n)) = q ∧ 10 ^ (n - 1) ≤ c ∧ c ≤ 10 ^ n ∧
      ((c : Int) = (q / 10 ^ (k - n)).floor ∨ (c : Int) = (q / 10 ^ (k - n)).floor + 1) := by
  have p : (0 : ℚ) < 10 ^ (k - n) := by positivity
  have s1 : ((10 ^ (n - 1) : Nat) : ℚ) ≤ q / 10 ^ (k - n) := by
    rw [le_div_iff₀ p]
    refine le_trans (le_of_eq ?_) h1
    push_cast
    rw [← zpow_natCast, ← zpow_add₀ (by norm_num)]
    congr 1
    omega
  have s2 : q / 10 ^ (k - n) < ((10 ^ n : Nat) : ℚ) := by
    rw [div_lt_iff₀ p]
    refine lt_of_lt_of_le h2 (le_of_eq ?_)
    push_cast
    rw [← zpow_natCast, ← zpow_add₀ (by norm_num)]
    congr 1
    omega
  unfold digitsFor at h
  simp only [pow10_eq] at h
  generalize q / 10 ^ (k - (n : Int)) = s at *
  have f1 : ((10 ^ (n - 1) : Nat) : Int) ≤ s.floor := by
    rw [Rat.le_floor_iff]; exact_mod_cast s1
  have f2 : s.floor < ((10 ^ n : Nat) : Int) := by
    have := (Rat.floor_le s).trans_lt s2
    exact_mod_cast this
  generalize (10 ^ (n - 1) : Nat) = L at *
  generalize (10 ^ n : Nat) = U at *
  have fin : ∀ i : Int, (i = s.floor ∨ i = s.floor + 1) → rnd ((i : ℚ) * 10 ^ (k - (n : Int))) = q → i.toNat = c →
      rnd ((c : ℚ) * 10 ^ (k - (n : Int))) = q ∧ L ≤ c ∧ c ≤ U ∧ ((c : Int) = s.floor ∨ (c : Int) = s.floor + 1) := by
    intro i hi hr hc
    have e : (c : Int) = i := by omega
    refine ⟨?_, by omega, by omega, by rw [e]; exact hi⟩
    rw [← hr, ← e]
    rfl
  split at h
  · rename_i hr
    exact fin _ (rne_cases s) hr (by injection h)
  · split at h
    · rename_i hr
      exact fin _ (.inl rfl) hr (by injection h)
    · split at h
      · rename_i hr
        exact fin _ (.inr rfl) hr (by injection h)
      · cases h

/-- A decimal of at most `n` digits: where it lies relative to the multiples of `10^(k-n)` around `q`. -/
theorem decimal_place {c : Nat} {j : Int} (h1 : (10 : ℚ) ^ (k - 1) ≤ q) (hc : c < 10 ^ n) (hn : 1 ≤ n) :
    ((c : ℚ) * 10 ^ j ≤ (q / 10 ^ (k - n)).floor * 10 ^ (k - n) ∨
      ((q / 10 ^ (k - n)).floor + 1) * 10 ^ (k - n) ≤ (c : ℚ) * 10 ^ j) := by
  have p : (0 : ℚ) < 10 ^ (k - n) := by positivity
  have pj : (0 : ℚ) < 10 ^ j := by positivity
  by_cases hj : k - n ≤ j
  · have e : (c : ℚ) * 10 ^ j = ((c * 10 ^ (j - (k - n)).toNat : Int) : ℚ) * 10 ^ (k - (n : Int)) := by
      push_cast
      rw [mul_assoc, ← zpow_natCast, ← zpow_add₀ (by norm_num)]
      congr 2
      omega
    rw [e]
    generalize (c * 10 ^ (j - (k - n)).toNat : Int) = i
    rcases le_or_gt i (q / 10 ^ (k - (n : Int))).floor with hi | hi
    · left
      exact mul_le_mul_of_nonneg_right (by exact_mod_cast hi) p.le
    · right
      exact mul_le_mul_of_nonneg_right (by exact_mod_cast hi) p.le
  · left
    have f : ((10 ^ (n - 1) : Nat) : Int) ≤ (q / 10 ^ (k - (n : Int))).floor := by
      rw [Rat.le_floor_iff, le_div_iff₀ p]
      refine le_trans (le_of_eq ?_) h1
      push_cast
      rw [← zpow_natCast, ← zpow_add₀ (by norm_num)]
      congr 1
      omega
    have f' : ((10 : ℚ) ^ (n - 1)) ≤ (q / 10 ^ (k - (n : Int))).floor := by exact_mod_cast f
    refine le_trans ?_ (mul_le_mul_of_nonneg_right f' p.le)
    have c2 : (c : ℚ) ≤ 10 ^ n := by exact_mod_cast hc.le
    refine (mul_le_mul_of_nonneg_right c2 pj.le).trans ?_
    rw [← zpow_natCast, ← zpow_natCast, ← zpow_add₀ (by norm_num), ← zpow_add₀ (by norm_num)]
    exact zpow_le_zpow_right₀ (by norm_num) (by omega)

theorem floor_scaled (p : (0 : ℚ) < 10 ^ (k - n)) : (q / 10 ^ (k - n)).floor * (10 : ℚ) ^ (k - n) ≤ q ∧
    q < ((q / 10 ^ (k - n)).floor + 1) * (10 : ℚ) ^ (k - n) := by
  constructor
  · rw [← le_div_iff₀ p]; exact Rat.floor_le _
  · rw [← div_lt_iff₀ p]
    have := Rat.lt_floor_add_one (q / 10 ^ (k - n))
    exact_mod_cast this

/-- If some decimal of at most `n` digits is read back as `q`, `digitsFor` finds one, and none of them is nearer. -/
theorem digitsFor_complete {c : Nat} {j : Int} (hq : Binary64 q) (h1 : (10 : ℚ) ^ (k - 1) ≤ q) (hc : c < 10 ^ n) (hn : 1 ≤ n)
    (hr : rnd ((c : ℚ) * 10 ^ j) = q) :
    ∃ d, digitsFor q k n = some d ∧ |(d : ℚ) * 10 ^ (k - n) - q| ≤ |(c : ℚ) * 10 ^ j - q| := by
  have p : (0 : ℚ) < 10 ^ (k - n) := by positivity
  have hpl := decimal_place (q := q) (j := j) h1 hc hn
  obtain ⟨l1, l2⟩ := floor_scaled (q := q) (k := k) (n := n) p
  have q0 : 0 < q := lt_of_lt_of_le (by positivity) h1
  have fl0 : 0 ≤ (q / 10 ^ (k - (n : Int))).floor := by
    rw [Rat.le_floor_iff]
    push_cast
    positivity
  have near := rne_nearest (q / 10 ^ (k - (n : Int)))
  have hcs := rne_cases (q / 10 ^ (k - (n : Int)))
  unfold digitsFor
  simp only [pow10_eq]
  have sc : ∀ i : Int, |(i : ℚ) * 10 ^ (k - (n : Int)) - q| = |q / 10 ^ (k - (n : Int)) - i| * 10 ^ (k - (n : Int)) := by
    intro i
    rw [← abs_of_pos p, ← abs_mul, abs_of_pos p, sub_mul, div_mul_cancel₀ _ p.ne', abs_sub_comm]
  generalize hy : (c : ℚ) * 10 ^ j = y at *
  generalize q / 10 ^ (k - (n : Int)) = s at *
  have cast : ∀ i : Int, 0 ≤ i → ((i.toNat : Nat) : ℚ) = i := by
    intro i hi
    exact_mod_cast Int.toNat_of_nonneg hi
  -- distances
  have dl : |(s.floor : ℚ) * 10 ^ (k - (n : Int)) - q| = q - s.floor * 10 ^ (k - (n : Int)) := by
    rw [abs_of_nonpos (by linarith)]; ring
  have du : |((s.floor + 1 : Int) : ℚ) * 10 ^ (k - (n : Int)) - q| = (s.floor + 1) * 10 ^ (k - (n : Int)) - q := by
    push_cast
    rw [abs_of_nonneg (by linarith)]
  have nl := near s.floor
  have nu := near (s.floor + 1)
  have nl' := mul_le_mul_of_nonneg_right nl p.le
  have nu' := mul_le_mul_of_nonneg_right nu p.le
  rw [← sc, ← sc] at nl' nu'
  have rq : rnd q = q := rnd_of_mem hq
  split
  · refine ⟨_, rfl, ?_⟩
    rw [cast _ (by rcases hcs with h | h <;> omega)]
    rcases hpl with h | h
    · refine nl'.trans ?_
      rw [dl, abs_of_nonpos (by linarith)]
      linarith
    · refine nu'.trans ?_
      rw [du, abs_of_nonneg (by linarith)]
      linarith
  · rename_i hnr
    have lower : y ≤ s.floor * 10 ^ (k - (n : Int)) → rnd (s.floor * 10 ^ (k - (n : Int))) = q := by
      intro h
      refine le_antisymm ?_ ?_
      · have := rnd_mono l1; rwa [rq] at this
      · have := rnd_mono h; rwa [hr] at this
    have upper : ((s.floor : ℚ) + 1) * 10 ^ (k - (n : Int)) ≤ y → rnd (((s.floor + 1 : Int) : ℚ) * 10 ^ (k - (n : Int))) = q := by
      intro h
      push_cast
      refine le_antisymm ?_ ?_
      · have := rnd_mono h; rwa [hr] at this
      · have := rnd_mono l2.le; rwa [rq] at this
    split
    · rename_i hlr
      refine ⟨_, rfl, ?_⟩
      rw [cast _ fl0, dl]
      rcases hpl with h | h
      · rw [abs_of_nonpos (by linarith)]
        linarith
      · exfalso
        rcases hcs with e | e
        · rw [e] at hnr; exact hnr hlr
        · rw [e] at hnr; exact hnr (upper h)
    · rename_i hlr
      rcases hpl with h | h
      · exact absurd (lower h) hlr
      · rw [if_pos (upper h)]
        refine ⟨_, rfl, ?_⟩
        rw [cast _ (by omega), du, abs_of_nonneg (by linarith)]
        linarith

/-- Seventeen digits always suffice. -/
theorem digitsFor_17 (hq : Binary64 q) (h1 : (10 : ℚ) ^ (k - 1) ≤ q) : ∃ d, digitsFor q k 17 = some d := by
  have p : (0 : ℚ) < 10 ^ (k - 17) := by positivity
  have q0 : 0 < q := lt_of_lt_of_le (by positivity) h1
  unfold digitsFor
  simp only [pow10_eq]
  rw [if_pos]
  · exact ⟨_, rfl⟩
  · refine rnd_close hq q0 ?_
    have half : |q / 10 ^ (k - 17) - rne (q / 10 ^ (k - 17))| ≤ 1 / 2 := by
      have a1 := rne_nearest (q / 10 ^ (k - 17)) (q / 10 ^ (k - 17)).floor
      have a2 := rne_nearest (q / 10 ^ (k - 17)) ((q / 10 ^ (k - 17)).floor + 1)
      have f1 : (((q / 10 ^ (k - 17)).floor : Int) : ℚ) ≤ q / 10 ^ (k - 17) := Rat.floor_le _
      have f2 : q / 10 ^ (k - 17) < (((q / 10 ^ (k - 17)).floor : Int) : ℚ) + 1 := by
        have := Rat.lt_floor_add_one (q / 10 ^ (k - 17))
        exact_mod_cast this
      push_cast at a2
      rw [abs_of_nonneg (a := q / 10 ^ (k - 17) - (((q / 10 ^ (k - 17)).floor : Int) : ℚ)) (by linarith)] at a1
      rw [abs_of_nonpos (a := q / 10 ^ (k - 17) - ((((q / 10 ^ (k - 17)).floor : Int) : ℚ) + 1)) (by linarith)] at a2
      linarith
    have e : (rne (q / 10 ^ (k - 17)) : ℚ) * 10 ^ (k - 17) - q = -((q / 10 ^ (k - 17) - rne (q / 10 ^ (k - 17))) * 10 ^ (k - 17)) := by
      rw [sub_mul, div_mul_cancel₀ _ p.ne']; ring
    push_cast
    rw [e, abs_neg, abs_mul, abs_of_pos p]
    refine (mul_le_mul_of_nonneg_right half p.le).trans ?_
    have : (10 : ℚ) ^ (k - 17) * 10 ^ 16 = 10 ^ (k - 1) := by
      rw [show (10 : ℚ) ^ 16 = 10 ^ (16 : Int) by norm_num, ← zpow_add₀ (by norm_num)]
      congr 1
      omega
    have h3 : (10 : ℚ) ^ (k - 17) * 10 ^ 16 ≤ q := this ▸ h1
    generalize (10 : ℚ) ^ (k - 17) = w at *
    linarith

theorem searchDigits_spec (hq : Binary64 q) (h1 : (10 : ℚ) ^ (k - 1) ≤ q) (fuel : Nat) (n : Nat) (hf : n + fuel = 17) :
    digitsFor q k (searchDigits q k fuel n).2 = some (searchDigits q k fuel n).1 ∧ n ≤ (searchDigits q k fuel n).2 ∧
      (searchDigits q k fuel n).2 ≤ 17 ∧ ∀ m, n ≤ m → m < (searchDigits q k fuel n).2 → digitsFor q k m = none := by
  induction fuel generalizing n with
  | zero =>
    obtain ⟨d, hd⟩ := digitsFor_17 hq h1
    have : n = 17 := by omega
    subst this
    unfold searchDigits
    rw [hd]
    exact ⟨rfl, le_refl _, le_refl _, fun m a b => by dsimp only at b; omega⟩
  | succ fuel ih =>
    unfold searchDigits
    cases hd : digitsFor q k n with
    | some c => exact ⟨hd, le_refl _, by dsimp only; omega, fun m a b => by dsimp only at b; omega⟩
    | none =>
      obtain ⟨a, b, c, d⟩ := ih (n + 1) (by omega)
      refine ⟨a, by dsimp only; omega, c, fun m h0 h => ?_⟩
      rcases Nat.eq_or_lt_of_le h0 with e | e
      · rw [← e]; exact hd
      · exact d m e h

end

end F64
end StlDice
