import Mathlib.Algebra.Order.Field.Power
import Mathlib.Data.Rat.Floor
import Mathlib.Tactic.Linarith
import Mathlib.Tactic.Positivity
import Mathlib.Tactic.FieldSimp
import Mathlib.Tactic.Ring
import Verif.Model.Basic

/-!
# Go's float64

Go's `float64` is IEEE 754 binary64 and every operation rounds to nearest, ties to even.  A finite float64 is a
rational `m·2^e` with `|m| ≤ 2^53` and `e ≥ -1074`.  Not modelled: overflow to infinity (numbers are unbounded here),
NaN, division by zero, the sign of zero, and the fused multiply-add some compilers use (Go does not on amd64).
-/

namespace StlDice

/-- The finite binary floating-point numbers with `P` significant bits and smallest exponent `emin` (without an upper
    bound on the exponent). -/
def Spec.Binary (P : Nat) (emin : Int) (x : ℚ) : Prop := ∃ m e : Int, |m| ≤ 2 ^ P ∧ emin ≤ e ∧ x = m * (2 : ℚ) ^ e

/-- The finite binary64 numbers (without the upper bound on the exponent). -/
def Spec.Binary64 (x : ℚ) : Prop := Spec.Binary 53 (-1074) x

/-- The finite binary32 numbers (without the upper bound on the exponent). -/
def Spec.Binary32 (x : ℚ) : Prop := Spec.Binary 24 (-149) x

namespace F64

/-- `2^e`. -/
def pow2 : Int → ℚ
  | .ofNat n => ((2 ^ n : Nat) : ℚ)
  | .negSucc n => mkRat 1 (2 ^ (n + 1))

/-- The integer `l` with `2^l ≤ |q| < 2^(l+1)`, for `q ≠ 0`. -/
def ilog2 (q : ℚ) : Int :=
  if pow2 ((q.num.natAbs.log2 : Int) - (q.den.log2 : Int)) ≤ |q| then (q.num.natAbs.log2 : Int) - (q.den.log2 : Int)
  else (q.num.natAbs.log2 : Int) - (q.den.log2 : Int) - 1

/-- The nearest integer, ties to even. -/
def rne (x : ℚ) : Int :=
  if x - x.floor < 1 / 2 then x.floor
  else if 1 / 2 < x - x.floor then x.floor + 1
  else if x.floor % 2 = 0 then x.floor else x.floor + 1

/-- The exponent of the last bit of the numbers with `P` bits around `q`. -/
def expTo (P : Nat) (emin : Int) (q : ℚ) : Int := max (ilog2 q - (P - 1)) emin

/-- Rounding to `P` bits: nearest, ties to even. -/
def rndTo (P : Nat) (emin : Int) (q : ℚ) : ℚ :=
  if q = 0 then 0 else rne (q / pow2 (expTo P emin q)) * pow2 (expTo P emin q)

/-- Rounding to binary64. -/
def rnd (q : ℚ) : ℚ := rndTo 53 (-1074) q

/-- Rounding to binary32: the conversion `float32(x)`. -/
def rnd32 (q : ℚ) : ℚ := rndTo 24 (-149) q

/-- The exponent of the last bit of the binary64 numbers around `q`. -/
def expOf (q : ℚ) : Int := expTo 53 (-1074) q

theorem pow2_eq (e : Int) : pow2 e = (2 : ℚ) ^ e := by
  cases e with
  | ofNat n => simp [pow2]
  | negSucc n =>
    rw [pow2, Rat.mkRat_eq_div]
    simp [zpow_negSucc]

theorem ilog2_spec {q : ℚ} (hq : q ≠ 0) : (2 : ℚ) ^ ilog2 q ≤ |q| ∧ |q| < (2 : ℚ) ^ (ilog2 q + 1) := by
  have hn : q.num.natAbs ≠ 0 := by
    rw [Int.natAbs_ne_zero]; exact Rat.num_ne_zero.mpr hq
  have hd : q.den ≠ 0 := q.den_ne_zero
  have habs : |q| = (q.num.natAbs : ℚ) / q.den := by
    conv_lhs => rw [← Rat.num_div_den q]
    rw [abs_div, Nat.cast_natAbs, Int.cast_abs, Nat.abs_cast]
  have n1 : (2 : ℚ) ^ (q.num.natAbs.log2 : Int) ≤ q.num.natAbs := by
    rw [zpow_natCast]; exact_mod_cast Nat.log2_self_le hn
  have n2 : (q.num.natAbs : ℚ) < (2 : ℚ) ^ ((q.num.natAbs.log2 : Int) + 1) := by
    have := Nat.lt_log2_self (n := q.num.natAbs)
    rw [zpow_add_one₀ (by norm_num), zpow_natCast]
    have h2 : ((q.num.natAbs : Nat) : ℚ) < ((2 ^ (q.num.natAbs.log2 + 1) : Nat) : ℚ) := by exact_mod_cast this
    rw [pow_succ] at h2
    exact_mod_cast h2
  have d1 : (2 : ℚ) ^ (q.den.log2 : Int) ≤ q.den := by
    rw [zpow_natCast]; exact_mod_cast Nat.log2_self_le hd
  have d2 : (q.den : ℚ) < (2 : ℚ) ^ ((q.den.log2 : Int) + 1) := by
    have := Nat.lt_log2_self (n := q.den)
    rw [zpow_add_one₀ (by norm_num), zpow_natCast]
    have h2 : ((q.den : Nat) : ℚ) < ((2 ^ (q.den.log2 + 1) : Nat) : ℚ) := by exact_mod_cast this
    rw [pow_succ] at h2
    exact_mod_cast h2
  have hdpos : (0 : ℚ) < q.den := by exact_mod_cast q.den_pos
  unfold ilog2
  rw [pow2_eq]
  generalize (q.num.natAbs.log2 : Int) = a at *
  generalize (q.den.log2 : Int) = b at *
  have p : ∀ e : Int, (0 : ℚ) < 2 ^ e := fun e => by positivity
  have up : |q| < (2 : ℚ) ^ (a - b + 1) := by
    rw [habs, div_lt_iff₀ hdpos]
    calc (q.num.natAbs : ℚ) < 2 ^ (a + 1) := n2
      _ = 2 ^ (a - b + 1) * 2 ^ b := by rw [← zpow_add₀ (by norm_num)]; congr 1; omega
      _ ≤ _ := by exact mul_le_mul_of_nonneg_left d1 (p _).le
  have lo : (2 : ℚ) ^ (a - b - 1) ≤ |q| := by
    rw [habs, le_div_iff₀ hdpos]
    calc (2 : ℚ) ^ (a - b - 1) * q.den ≤ 2 ^ (a - b - 1) * 2 ^ (b + 1) := mul_le_mul_of_nonneg_left d2.le (p _).le
      _ = 2 ^ a := by rw [← zpow_add₀ (by norm_num)]; congr 1; omega
      _ ≤ _ := n1
  split
  · exact ⟨by assumption, up⟩
  · rename_i h
    push Not at h
    exact ⟨lo, by rw [Int.sub_add_cancel]; exact h⟩

/-- `rne` is a nearest integer. -/
theorem rne_nearest (x : ℚ) (n : Int) : |x - rne x| ≤ |x - n| := by
  have h1 : ((x.floor : Int) : ℚ) ≤ x := Rat.floor_le x
  have h2 : x < (x.floor : ℚ) + 1 := by
    have := Rat.lt_floor_add_one x
    exact_mod_cast this
  have hn : n ≤ x.floor ∨ x.floor + 1 ≤ n := by omega
  have hn' : (n : ℚ) ≤ x.floor ∨ (x.floor : ℚ) + 1 ≤ n := by
    rcases hn with h | h
    · left; exact_mod_cast h
    · right; exact_mod_cast h
  have key : |x - n| ≥ min (x - x.floor) (x.floor + 1 - x) := by
    rcases hn' with h | h
    · rw [abs_of_nonneg (by linarith)]
      exact (min_le_left _ _).trans (by linarith)
    · rw [abs_of_nonpos (by linarith)]
      exact (min_le_right _ _).trans (by linarith)
  refine le_trans ?_ key
  unfold rne
  split
  · rename_i h
    rw [abs_of_nonneg (by linarith), min_eq_left (by linarith)]
  · split
    · rename_i h h'
      push_cast
      rw [abs_of_nonpos (by linarith), min_eq_right (by linarith)]
      linarith
    · rename_i h h'
      have e : x - x.floor = 1 / 2 := by
        push Not at h h'; exact le_antisymm h' h
      split
      · rw [abs_of_nonneg (by linarith), min_eq_left (by linarith)]
      · push_cast
        rw [abs_of_nonpos (by linarith), min_eq_right (by linarith)]
        linarith

/-- A tie goes to the even neighbour. -/
theorem rne_even {x : ℚ} (h : x - x.floor = 1 / 2) : rne x % 2 = 0 := by
  unfold rne
  rw [if_neg (by rw [h]; norm_num), if_neg (by rw [h]; norm_num)]
  split
  · assumption
  · omega

theorem rne_int (n : Int) : rne n = n := by
  have := rne_nearest n n
  rw [sub_self, abs_zero] at this
  have h := abs_nonpos_iff.mp this
  have : ((rne n : Int) : ℚ) = n := by linarith
  exact_mod_cast this

section
variable {P : Nat} {emin : Int}

theorem expTo_spec {q : ℚ} (hq : q ≠ 0) : emin ≤ expTo P emin q ∧ |q| < (2 : ℚ) ^ (expTo P emin q + P) ∧
    (expTo P emin q = emin ∨ (2 : ℚ) ^ (expTo P emin q + (P - 1)) ≤ |q|) := by
  obtain ⟨h1, h2⟩ := ilog2_spec hq
  unfold expTo
  refine ⟨le_max_right _ _, ?_, ?_⟩
  · refine h2.trans_le (zpow_le_zpow_right₀ (by norm_num) ?_)
    have := le_max_left (ilog2 q - (P - 1)) emin
    omega
  · rcases max_choice (ilog2 q - (P - 1)) emin with h | h
    · right; rw [h, Int.sub_add_cancel]; exact h1
    · left; exact h

theorem rndTo_eq {q : ℚ} (hq : q ≠ 0) :
    rndTo P emin q = rne (q / 2 ^ expTo P emin q) * 2 ^ expTo P emin q := by
  unfold rndTo; rw [if_neg hq, pow2_eq]

theorem zpow_add_nat (e : Int) (n : Nat) : (2 : ℚ) ^ (e + n) = 2 ^ n * 2 ^ e := by
  rw [zpow_add₀ (by norm_num), zpow_natCast, mul_comm]

/-- The rounded number is a number of the format. -/
theorem rndTo_mem (q : ℚ) : Spec.Binary P emin (rndTo P emin q) := by
  by_cases hq : q = 0
  · subst hq
    exact ⟨0, emin, by rw [abs_zero]; positivity, le_refl _, by rw [Int.cast_zero, zero_mul]; rfl⟩
  · rw [rndTo_eq hq]
    obtain ⟨h1, h2, -⟩ := expTo_spec (P := P) (emin := emin) hq
    refine ⟨_, _, ?_, h1, rfl⟩
    generalize expTo P emin q = e at *
    have p : (0 : ℚ) < 2 ^ e := by positivity
    set x := q / 2 ^ e with hx
    have hlt : |x| < 2 ^ P := by
      rw [hx, abs_div, abs_of_pos p, div_lt_iff₀ p, ← zpow_add_nat]
      exact h2
    obtain ⟨l, u⟩ := abs_lt.mp hlt
    have n1 := rne_nearest x (2 ^ P)
    have n2 := rne_nearest x (-2 ^ P)
    have c : (((2 : Int) ^ P : Int) : ℚ) = 2 ^ P := Int.cast_pow _ _
    rw [c] at n1
    rw [Int.cast_neg, c] at n2
    rw [abs_of_neg (by linarith : x - 2 ^ P < 0)] at n1
    rw [abs_of_pos (by linarith : 0 < x - -2 ^ P)] at n2
    have b1 := abs_le.mp n1
    have b2 := abs_le.mp n2
    have c1 : ((rne x : Int) : ℚ) ≤ 2 ^ P := by linarith
    have c2 : -(2 : ℚ) ^ P ≤ rne x := by linarith
    rw [abs_le]
    constructor
    · exact_mod_cast c2
    · exact_mod_cast c1

/-- A number of the format is a multiple of the last bit of `q`, or at most the power of two below `q`. -/
theorem mult_or_small {e f m : Int} (hm : |m| ≤ 2 ^ P) :
    (∃ n : Int, (m : ℚ) * 2 ^ f = n * 2 ^ e) ∨ (f < e ∧ |(m : ℚ) * 2 ^ f| ≤ 2 ^ (e + (P - 1))) := by
  by_cases hfe : e ≤ f
  · refine .inl ⟨m * 2 ^ (f - e).toNat, ?_⟩
    push_cast
    rw [mul_assoc, ← zpow_natCast, ← zpow_add₀ (by norm_num)]
    congr 2
    omega
  · push Not at hfe
    refine .inr ⟨hfe, ?_⟩
    have pf : (0 : ℚ) < 2 ^ f := by positivity
    rw [abs_mul, abs_of_pos pf]
    have hm' : |(m : ℚ)| ≤ 2 ^ P := by exact_mod_cast hm
    calc |(m : ℚ)| * 2 ^ f ≤ 2 ^ P * 2 ^ f := mul_le_mul_of_nonneg_right hm' pf.le
      _ = (2 : ℚ) ^ (f + P) := (zpow_add_nat f P).symm
      _ ≤ _ := zpow_le_zpow_right₀ (by norm_num) (by omega)

theorem topBit (hP : 1 ≤ P) (e : Int) : (2 : ℚ) ^ (e + (P - 1)) = ((2 ^ (P - 1) : Int) : ℚ) * 2 ^ e := by
  have : e + ((P : Int) - 1) = e + ((P - 1 : Nat) : Int) := by omega
  rw [this, zpow_add_nat, Int.cast_pow, Int.cast_ofNat]

/-- No number of the format is nearer. -/
theorem rndTo_nearest (hP : 1 ≤ P) (q : ℚ) {x : ℚ} (hx : Spec.Binary P emin x) : |q - rndTo P emin q| ≤ |q - x| := by
  by_cases hq : q = 0
  · subst hq
    have : rndTo P emin 0 = 0 := rfl
    rw [this, sub_self, abs_zero]
    exact abs_nonneg _
  obtain ⟨h1, h2, h3⟩ := expTo_spec (P := P) (emin := emin) hq
  rw [rndTo_eq hq]
  generalize expTo P emin q = e at *
  have p : (0 : ℚ) < 2 ^ e := by positivity
  -- multiples of 2^e
  have mult : ∀ n : Int, |q - rne (q / 2 ^ e) * 2 ^ e| ≤ |q - n * 2 ^ e| := by
    intro n
    have := rne_nearest (q / 2 ^ e) n
    have e1 : ∀ m : Int, |q - m * 2 ^ e| = |q / 2 ^ e - m| * 2 ^ e := by
      intro m
      rw [← abs_of_pos p, ← abs_mul, abs_of_pos p]
      congr 1
      field_simp
    rw [e1, e1]
    exact mul_le_mul_of_nonneg_right this p.le
  obtain ⟨m, f, hm, hf, rfl⟩ := hx
  rcases mult_or_small (e := e) (f := f) hm with ⟨n, hn⟩ | ⟨hfe, hmq⟩
  · rw [hn]; exact mult n
  · have h3 := h3.resolve_left (by omega)
    obtain ⟨l, u⟩ := abs_le.mp hmq
    rcases le_total 0 q with h0 | h0
    · rw [abs_of_nonneg h0] at h3
      refine (mult (2 ^ (P - 1))).trans ?_
      rw [← topBit hP, abs_of_nonneg (by linarith), abs_of_nonneg (by linarith)]
      linarith
    · rw [abs_of_nonpos h0] at h3
      refine (mult (-2 ^ (P - 1))).trans ?_
      rw [Int.cast_neg, neg_mul, ← topBit hP, abs_of_nonpos (by linarith), abs_of_nonpos (by linarith)]
      linarith

/-- A number as near as the rounded one is a multiple of the last bit. -/
theorem near_mult (hP : 1 ≤ P) {q : ℚ} (hq : q ≠ 0) {x : ℚ} (hx : Spec.Binary P emin x) (hn : |q - x| = |q - rndTo P emin q|) :
    ∃ n : Int, x = n * 2 ^ expTo P emin q := by
  obtain ⟨h1, h2, h3⟩ := expTo_spec (P := P) (emin := emin) hq
  have near := fun y hy => rndTo_nearest (P := P) (emin := emin) hP q (x := y) hy
  rw [← hn] at near
  generalize expTo P emin q = e at *
  obtain ⟨m, f, hm, hf, rfl⟩ := hx
  rcases mult_or_small (e := e) (f := f) hm with h | ⟨hfe, hmq⟩
  · exact h
  · have h3 := h3.resolve_left (by omega)
    obtain ⟨l, u⟩ := abs_le.mp hmq
    have two : |(2 : Int) ^ (P - 1)| ≤ 2 ^ P := by
      rw [abs_of_nonneg (by positivity)]
      exact pow_le_pow_right₀ (by norm_num) (by omega)
    rcases le_total 0 q with h0 | h0
    · rw [abs_of_nonneg h0] at h3
      have := near (2 ^ (e + ((P : Int) - 1))) ⟨2 ^ (P - 1), e, two, h1, topBit hP e⟩
      rw [abs_of_nonneg (by linarith), abs_of_nonneg (by linarith)] at this
      refine ⟨2 ^ (P - 1), ?_⟩
      rw [← topBit hP]
      linarith
    · rw [abs_of_nonpos h0] at h3
      have := near (-2 ^ (e + ((P : Int) - 1))) ⟨-2 ^ (P - 1), e, by rwa [abs_neg], h1, by
        rw [Int.cast_neg, neg_mul, ← topBit hP]⟩
      rw [abs_of_nonpos (by linarith), abs_of_nonpos (by linarith)] at this
      refine ⟨-2 ^ (P - 1), ?_⟩
      rw [Int.cast_neg, neg_mul, ← topBit hP]
      linarith

/-- What IEEE 754 calls round to nearest, ties to even: a nearest number of the format, and when another one is equally
    near, an even multiple of their distance. -/
def _root_.StlDice.Spec.NearestEven (fmt : ℚ → Prop) (q r : ℚ) : Prop :=
  fmt r ∧ (∀ x, fmt x → |q - r| ≤ |q - x|) ∧
  ∀ x, fmt x → x ≠ r → |q - x| = |q - r| → ∃ m : Int, r = 2 * m * |r - x|

/-- A tie between two integers is at a half. -/
theorem rne_tie {y : ℚ} {n : Int} (h : |y - n| = |y - rne y|) (hne : n ≠ rne y) :
    rne y % 2 = 0 ∧ |(rne y : ℚ) - n| = 1 := by
  have a1 := rne_nearest y y.floor
  have a2 := rne_nearest y (y.floor + 1)
  rw [← h] at a1 a2
  have h1 : ((y.floor : Int) : ℚ) ≤ y := Rat.floor_le y
  have h2 : y < (y.floor : ℚ) + 1 := by
    have := Rat.lt_floor_add_one y
    exact_mod_cast this
  push_cast at a2
  rw [abs_of_nonneg (by linarith : 0 ≤ y - y.floor)] at a1
  rw [abs_of_nonpos (by linarith : y - (y.floor + 1) ≤ 0)] at a2
  have ne' : (n : ℚ) ≠ rne y := by exact_mod_cast hne
  have sum : (n : ℚ) + rne y = 2 * y := by
    rcases abs_eq_abs.mp h with e | e
    · exact absurd (by linarith) ne'
    · linarith
  have lt : |(n : ℚ) - rne y| ≤ 1 := by
    have e1 : (n : ℚ) - rne y = -2 * (y - n) := by linarith
    rw [e1, abs_mul]
    have : |(-2 : ℚ)| = 2 := by norm_num
    rw [this]
    linarith
  have ge : 1 ≤ |n - rne y| := Int.one_le_abs (sub_ne_zero.mpr hne)
  have ge' : (1 : ℚ) ≤ |(n : ℚ) - rne y| := by exact_mod_cast ge
  have one : |(n : ℚ) - rne y| = 1 := le_antisymm lt ge'
  refine ⟨rne_even ?_, by rw [abs_sub_comm]; exact one⟩
  have half : |y - n| = 1 / 2 := by
    have e1 : (n : ℚ) - rne y = -2 * (y - n) := by linarith
    rw [e1, abs_mul] at one
    have : |(-2 : ℚ)| = 2 := by norm_num
    rw [this] at one
    linarith
  linarith

/-- `rndTo` rounds to nearest, ties to even … -/
theorem rndTo_nearestEven (hP : 1 ≤ P) (q : ℚ) : Spec.NearestEven (Spec.Binary P emin) q (rndTo P emin q) := by
  refine ⟨rndTo_mem q, fun x hx => rndTo_nearest hP q hx, fun x hx hne hn => ?_⟩
  by_cases hq : q = 0
  · subst hq
    exfalso
    apply hne
    have z : rndTo P emin 0 = 0 := rfl
    rw [z, sub_self, abs_zero, abs_eq_zero] at hn
    rw [z]; linarith
  obtain ⟨n, rfl⟩ := near_mult hP hq hx hn
  rw [rndTo_eq hq] at hn hne ⊢
  generalize expTo P emin q = e at *
  have p : (0 : ℚ) < 2 ^ e := by positivity
  have e1 : ∀ m : Int, |q - m * 2 ^ e| = |q / 2 ^ e - m| * 2 ^ e := by
    intro m
    rw [← abs_of_pos p, ← abs_mul, abs_of_pos p]
    congr 1
    field_simp
  rw [e1, e1] at hn
  obtain ⟨t1, t2⟩ := rne_tie (mul_right_cancel₀ p.ne' hn) (fun h => hne (by rw [h]))
  refine ⟨rne (q / 2 ^ e) / 2, ?_⟩
  rw [← sub_mul, abs_mul, t2, one_mul, abs_of_pos p]
  have : rne (q / 2 ^ e) = 2 * (rne (q / 2 ^ e) / 2) := by omega
  have t : ((rne (q / 2 ^ e) : Int) : ℚ) = 2 * ((rne (q / 2 ^ e) / 2 : Int) : ℚ) := by exact_mod_cast this
  exact congrArg (· * (2 : ℚ) ^ e) t

/-- … and nothing else does. -/
theorem nearestEven_unique {fmt : ℚ → Prop} {q r s : ℚ} (hr : Spec.NearestEven fmt q r) (hs : Spec.NearestEven fmt q s) : r = s := by
  by_contra hne
  have e : |q - r| = |q - s| := le_antisymm (hr.2.1 s hs.1) (hs.2.1 r hr.1)
  obtain ⟨m, hm⟩ := hr.2.2 s hs.1 (Ne.symm hne) e.symm
  obtain ⟨n, hn⟩ := hs.2.2 r hr.1 hne e
  rw [abs_sub_comm] at hn
  have g : |r - s| ≠ 0 := abs_ne_zero.mpr (sub_ne_zero.mpr hne)
  have d : r - s = (2 * (m - n) : Int) * |r - s| := by
    push_cast
    linarith
  have a := congrArg abs d
  rw [abs_mul, abs_abs] at a
  have a1 : |((2 * (m - n) : Int) : ℚ)| = 1 := mul_right_cancel₀ g (by rw [← a, one_mul])
  have a2 : |2 * (m - n)| = 1 := by exact_mod_cast a1
  rcases (abs_eq (by norm_num : (0 : Int) ≤ 1)).mp a2 with h | h <;> omega

end

theorem expOf_spec {q : ℚ} (hq : q ≠ 0) : -1074 ≤ expOf q ∧ |q| < (2 : ℚ) ^ (expOf q + 53) ∧
    (expOf q = -1074 ∨ (2 : ℚ) ^ (expOf q + 52) ≤ |q|) := expTo_spec (P := 53) hq

theorem rnd_eq {q : ℚ} (hq : q ≠ 0) : rnd q = rne (q / 2 ^ expOf q) * 2 ^ expOf q := rndTo_eq hq

theorem rnd_mem (q : ℚ) : Spec.Binary64 (rnd q) := rndTo_mem q

theorem rnd_nearest (q : ℚ) {x : ℚ} (hx : Spec.Binary64 x) : |q - rnd q| ≤ |q - x| := rndTo_nearest (by norm_num) q hx

theorem rnd_nearestEven (q : ℚ) : Spec.NearestEven Spec.Binary64 q (rnd q) := rndTo_nearestEven (by norm_num) q

theorem rnd32_nearestEven (q : ℚ) : Spec.NearestEven Spec.Binary32 q (rnd32 q) := rndTo_nearestEven (by norm_num) q

/-- Binary64 numbers are not changed. -/
theorem rnd_of_mem {x : ℚ} (hx : Spec.Binary64 x) : rnd x = x := by
  have := rnd_nearest x hx
  rw [sub_self, abs_zero] at this
  have h := abs_nonpos_iff.mp this
  linarith

theorem rnd_rnd (q : ℚ) : rnd (rnd q) = rnd q := rnd_of_mem (rnd_mem q)

theorem mem_iff (x : ℚ) : Spec.Binary64 x ↔ rnd x = x := ⟨rnd_of_mem, fun h => h ▸ rnd_mem x⟩

theorem rnd_mono {x y : ℚ} (h : x ≤ y) : rnd x ≤ rnd y := by
  by_contra hc
  push Not at hc
  have n1 := rnd_nearest x (rnd_mem y)
  have n2 := rnd_nearest y (rnd_mem x)
  have hx : (rnd x + rnd y) / 2 ≤ x := by
    by_contra hlt
    push Not at hlt
    rw [abs_of_nonpos (by linarith : x - rnd x ≤ 0)] at n1
    rcases le_total 0 (x - rnd y) with h0 | h0
    · rw [abs_of_nonneg h0] at n1; linarith
    · rw [abs_of_nonpos h0] at n1; linarith
  have hy : y ≤ (rnd x + rnd y) / 2 := by
    by_contra hlt
    push Not at hlt
    rw [abs_of_nonneg (by linarith : 0 ≤ y - rnd y)] at n2
    rcases le_total 0 (y - rnd x) with h0 | h0
    · rw [abs_of_nonneg h0] at n2; linarith
    · rw [abs_of_nonpos h0] at n2; linarith
  have : x = y := by linarith
  rw [this] at hc
  exact lt_irrefl _ hc

end F64

/-- A finite float64. -/
structure F64 where
  val : ℚ
  rep : F64.rnd val = val
deriving DecidableEq

namespace F64

/-- The float64 nearest to `q`. -/
def of (q : ℚ) : F64 := ⟨rnd q, rnd_rnd q⟩

/-- Go's float64 arithmetic. -/
instance : GoFloat F64 where
  ofInt i := of i
  lit q := of q
  add a b := of (a.val + b.val)
  sub a b := of (a.val - b.val)
  mul a b := of (a.val * b.val)
  div a b := of (a.val / b.val)
  neg a := of (-a.val)
  lt a b := decide (a.val < b.val)
  le a b := decide (a.val ≤ b.val)
  eq a b := decide (a.val = b.val)
  floor a := of (a.val.floor : Int)
  ceil a := of (a.val.ceil : Int)
  toInt a := if 0 ≤ a.val then a.val.floor else a.val.ceil

end F64
end StlDice
