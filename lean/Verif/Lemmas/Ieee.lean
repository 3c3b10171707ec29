import Verif.Spec.Ieee
import Verif.Props.VoxelizeFloat

/-! # Full float64 arithmetic on finite numbers is that of `F64` unless it overflows -/

namespace StlDice
open Spec GoFloat F64

namespace IeeeL
open Ieee (signed)

theorem rnd_le_double (q : ℚ) : |rnd q| ≤ 2 * |q| := by
  have h := rnd_nearest q binary64_zero
  rw [sub_zero] at h
  have := abs_sub_abs_le_abs_sub (rnd q) q
  rw [abs_sub_comm] at this
  linarith

theorem rnd_pow {n : Nat} {q : ℚ} (h : |q| ≤ 2 ^ n) : |rnd q| ≤ 2 ^ (n + 1) := by
  rw [pow_succ]
  have := rnd_le_double q
  linarith

theorem signed_rnd (z : Bool) (q : ℚ) : signed (if q = 0 then z else decide (q < 0)) (rnd |q|) = rnd q := by
  unfold signed
  by_cases h0 : q = 0
  · subst h0
    rw [abs_zero, rnd_zero]
    simp
  · rw [if_neg h0]
    by_cases h : q < 0
    · rw [if_pos (by simpa using h), abs_of_neg h, rnd_neg, neg_neg]
    · rw [if_neg (by simpa using h), abs_of_nonneg (not_lt.mp h)]

/-- Rounding an exact result that is in range. -/
theorem is_round (z : Bool) {q : ℚ} {n : Nat} (h : |q| ≤ 2 ^ n) (hn : n ≤ 1000) : Is (of q) (Ieee.round z q) := by
  have hr : rnd |q| < 2 ^ 1024 := by
    rw [← rnd_abs]
    exact (rnd_pow h).trans_lt (pow_lt_pow_right₀ (by norm_num) (by omega))
  refine ⟨if q = 0 then z else decide (q < 0), rnd |q|, ⟨rnd_nonneg (abs_nonneg q), hr, rnd_rnd _⟩, ?_, signed_rnd z q⟩
  unfold Ieee.round
  rw [dif_pos hr]

/-- `y` is the number `x`, which is at most `2^n` in magnitude. -/
def IsP (n : Nat) (x : F64) (y : Ieee) : Prop := Is x y ∧ |x.val| ≤ 2 ^ n

theorem IsP.mono {a b : Nat} {x : F64} {y : Ieee} (h : IsP a x y) (hab : a ≤ b) : IsP b x y :=
  ⟨h.1, h.2.trans (pow_le_pow_right₀ (by norm_num) hab)⟩

theorem isP_round (z : Bool) {q : ℚ} {n : Nat} (h : |q| ≤ 2 ^ n) (hn : n ≤ 1000) : IsP (n + 1) (of q) (Ieee.round z q) :=
  ⟨is_round z h hn, rnd_pow h⟩

theorem IsP.add {a b : Nat} (c : Nat) {x x' : F64} {y y' : Ieee} (h : IsP a x y) (h' : IsP b x' y') (ha : a ≤ c) (hb : b ≤ c)
    (hc : c ≤ 900) : IsP (c + 2) (GoFloat.add x x') (GoFloat.add y y') := by
  obtain ⟨⟨s, a, hh, rfl, e⟩, hA⟩ := h.mono ha
  obtain ⟨⟨t, b, hk, rfl, e'⟩, hB⟩ := h'.mono hb
  have hq : |x.val + x'.val| ≤ 2 ^ (c + 1) := by
    rw [pow_succ]
    have := abs_add_le x.val x'.val
    linarith
  show IsP (c + 1 + 1) (of (x.val + x'.val)) (Ieee.round (s && t) (signed s a + signed t b))
  have e1 : signed s a + signed t b = x.val + x'.val := by rw [← e, ← e']; rfl
  rw [e1]
  exact isP_round _ hq (by omega)

theorem IsP.neg {a : Nat} {x : F64} {y : Ieee} (h : IsP a x y) : IsP a (GoFloat.neg x) (GoFloat.neg y) := by
  obtain ⟨⟨s, a, hh, rfl, e⟩, hA⟩ := h
  have hv : (GoFloat.neg x : F64).val = -x.val := by
    show rnd (-x.val) = -x.val
    rw [rnd_neg, x.rep]
  refine ⟨⟨!s, a, hh, rfl, ?_⟩, by rw [hv, abs_neg]; exact hA⟩
  rw [hv, ← e]
  cases s <;> simp

theorem sub_eq (x y : F64) : (GoFloat.sub x y : F64) = GoFloat.add x (GoFloat.neg y) := by
  apply F64.ext
  show rnd (x.val - y.val) = rnd (x.val + rnd (-y.val))
  rw [rnd_neg, y.rep, sub_eq_add_neg]

theorem IsP.sub {a b : Nat} (c : Nat) {x x' : F64} {y y' : Ieee} (h : IsP a x y) (h' : IsP b x' y') (ha : a ≤ c) (hb : b ≤ c)
    (hc : c ≤ 900) : IsP (c + 2) (GoFloat.sub x x') (GoFloat.sub y y') := by
  rw [sub_eq]
  exact h.add c h'.neg ha hb hc

theorem IsP.mul {a b : Nat} {x x' : F64} {y y' : Ieee} (h : IsP a x y) (h' : IsP b x' y') (hc : a + b ≤ 1000) :
    IsP (a + b + 1) (GoFloat.mul x x') (GoFloat.mul y y') := by
  obtain ⟨⟨s, m, hh, rfl, e⟩, hA⟩ := h
  obtain ⟨⟨t, k, hk, rfl, e'⟩, hB⟩ := h'
  have hq : |x.val * x'.val| ≤ 2 ^ (a + b) := by
    rw [abs_mul, pow_add]
    exact mul_le_mul hA hB (abs_nonneg _) (by positivity)
  show IsP (a + b + 1) (of (x.val * x'.val)) (Ieee.round (s != t) (signed s m * signed t k))
  have e1 : signed s m * signed t k = x.val * x'.val := by rw [← e, ← e']; rfl
  rw [e1]
  exact isP_round _ hq hc

theorem signed_zero {s : Bool} {a : ℚ} : signed s a = 0 ↔ a = 0 := by
  unfold signed
  cases s <;> simp

theorem Is.div {c : Nat} {x x' : F64} {y y' : Ieee} (h : Is x y) (h' : Is x' y') (h0 : x'.val ≠ 0)
    (hB : |x.val / x'.val| ≤ 2 ^ c) (hc : c ≤ 1000) : IsP (c + 1) (GoFloat.div x x') (GoFloat.div y y') := by
  obtain ⟨s, a, hh, rfl, e⟩ := h
  obtain ⟨t, b, hk, rfl, e'⟩ := h'
  have hb : b ≠ 0 := fun hb => h0 (by rw [← e']; exact signed_zero.mpr hb)
  have hd : (GoFloat.div (Ieee.fin s a hh) (Ieee.fin t b hk) : Ieee) = Ieee.round (s != t) (signed s a / signed t b) := by
    show Ieee.div _ _ = _
    unfold Ieee.div
    exact if_neg hb
  rw [hd]
  have e1 : signed s a / signed t b = x.val / x'.val := by rw [← e, ← e']; rfl
  rw [e1]
  exact isP_round _ hB hc

theorem lt_is {x x' : F64} {y y' : Ieee} (h : Is x y) (h' : Is x' y') : (GoFloat.lt y y' : Bool) = GoFloat.lt x x' := by
  obtain ⟨s, a, hh, rfl, e⟩ := h
  obtain ⟨t, b, hk, rfl, e'⟩ := h'
  show decide (signed s a < signed t b) = decide (x.val < x'.val)
  rw [← e, ← e']
  rfl

theorem eq_is {x x' : F64} {y y' : Ieee} (h : Is x y) (h' : Is x' y') : (GoFloat.eq y y' : Bool) = GoFloat.eq x x' := by
  obtain ⟨s, a, hh, rfl, e⟩ := h
  obtain ⟨t, b, hk, rfl, e'⟩ := h'
  show decide (signed s a = signed t b) = decide (x.val = x'.val)
  rw [← e, ← e']
  rfl

theorem le_is {x x' : F64} {y y' : Ieee} (h : Is x y) (h' : Is x' y') : (GoFloat.le y y' : Bool) = GoFloat.le x x' := by
  have h1 := lt_is h h'
  have h2 := eq_is h h'
  show (GoFloat.lt y y' || GoFloat.eq y y') = _
  rw [h1, h2]
  show (decide (x.val < x'.val) || decide (x.val = x'.val)) = decide (x.val ≤ x'.val)
  rw [← Bool.decide_or, decide_eq_decide, le_iff_lt_or_eq]

theorem isP_ofInt {i : Int} {n : Nat} (h : |(i : ℚ)| ≤ 2 ^ n) (hn : n ≤ 1000) : IsP (n + 1) (ofInt i) (ofInt i) :=
  isP_round _ h hn

theorem isP_lit {q : ℚ} {n : Nat} (h : |q| ≤ 2 ^ n) (hn : n ≤ 1000) : IsP (n + 1) (lit q) (lit q) :=
  isP_round _ h hn

theorem isP_zero : IsP 1 (ofInt 0) (ofInt 0) := isP_ofInt (n := 0) (by norm_num) (by norm_num)
theorem isP_one : IsP 1 (ofInt 1) (ofInt 1) := isP_ofInt (n := 0) (by norm_num) (by norm_num)
theorem isP_neg_one : IsP 1 (ofInt (-1)) (ofInt (-1)) := isP_ofInt (n := 0) (by norm_num) (by norm_num)
theorem isP_half : IsP 1 (lit (1 / 2)) (lit (1 / 2)) := isP_lit (n := 0) (by norm_num [abs_of_pos]) (by norm_num)
theorem isP_eps : IsP 1 epsilon epsilon := isP_lit (n := 0) (by norm_num [abs_of_pos]) (by norm_num)

theorem abs_floor_le (q : ℚ) : |((q.floor : Int) : ℚ)| ≤ |q| + 1 := by
  have h1 := Rat.floor_le q
  have h2 : q < (q.floor : ℚ) + 1 := by exact_mod_cast Rat.lt_floor_add_one q
  rw [abs_le]
  constructor
  · have := neg_abs_le q
    linarith
  · have := le_abs_self q
    linarith

theorem abs_ceil_le (q : ℚ) : |((q.ceil : Int) : ℚ)| ≤ |q| + 1 := by
  have h : q.ceil = -(-q).floor := by
    exact Rat.ceil_eq_neg_floor_neg q
  rw [h]
  push_cast
  rw [abs_neg]
  have := abs_floor_le (-q)
  rwa [abs_neg] at this

theorem plus_one {n : Nat} {q : ℚ} (h : q ≤ 2 ^ n) : q + 1 ≤ 2 ^ (n + 1) := by
  rw [pow_succ]
  have : (1 : ℚ) ≤ 2 ^ n := one_le_pow₀ (by norm_num)
  linarith

theorem IsP.floor {a : Nat} {x : F64} {y : Ieee} (h : IsP a x y) (hs : a ≤ 900) :
    IsP (a + 2) (GoFloat.floor x) (GoFloat.floor y) := by
  obtain ⟨⟨s, m, hh, rfl, e⟩, hA⟩ := h
  show IsP (a + 1 + 1) (of ((x.val.floor : Int) : ℚ)) (Ieee.round s ((signed s m).floor : Int))
  have e1 : signed s m = x.val := e
  rw [e1]
  exact isP_round _ ((abs_floor_le _).trans (plus_one hA)) (by omega)

theorem IsP.ceil {a : Nat} {x : F64} {y : Ieee} (h : IsP a x y) (hs : a ≤ 900) :
    IsP (a + 2) (GoFloat.ceil x) (GoFloat.ceil y) := by
  obtain ⟨⟨s, m, hh, rfl, e⟩, hA⟩ := h
  show IsP (a + 1 + 1) (of ((x.val.ceil : Int) : ℚ)) (Ieee.round s ((signed s m).ceil : Int))
  have e1 : signed s m = x.val := e
  rw [e1]
  exact isP_round _ ((abs_ceil_le _).trans (plus_one hA)) (by omega)

theorem toInt_is {a : Nat} {x : F64} {y : Ieee} (h : IsP a x y) (hs : a ≤ 61) : (GoFloat.toInt y : Int) = GoFloat.toInt x := by
  obtain ⟨⟨s, m, hh, rfl, e⟩, hA⟩ := h.mono hs
  show (let i := if 0 ≤ signed s m then (signed s m).floor else (signed s m).ceil
    if -2 ^ 63 ≤ i ∧ i < 2 ^ 63 then i else Ieee.minInt) = if 0 ≤ x.val then x.val.floor else x.val.ceil
  have e1 : signed s m = x.val := e
  rw [e1]
  dsimp only
  have key : |(((if 0 ≤ x.val then x.val.floor else x.val.ceil) : Int) : ℚ)| ≤ 2 ^ 62 := by
    split
    · exact (abs_floor_le _).trans (plus_one hA)
    · exact (abs_ceil_le _).trans (plus_one hA)
  generalize (if 0 ≤ x.val then x.val.floor else x.val.ceil) = i at *
  have hi : |i| ≤ 2 ^ 62 := by exact_mod_cast key
  obtain ⟨h1, h2⟩ := abs_le.mp hi
  rw [if_pos (by omega)]

end IeeeL
end StlDice
