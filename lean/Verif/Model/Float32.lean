import Verif.Lemmas.Float64

/-!
# The bits of a float32

`math.Float32frombits` (stldice-slave.go:211-213) and the conversion `float32(x)` whose bits `gl.SaveSTL` writes.
Infinities and NaN (exponent field 255) are not modelled: the field is read like the others.
-/

namespace StlDice
namespace F64
open Spec

/-- `math.Float32frombits(n)` as a number: sign, 8 bits of exponent, 23 bits of fraction. -/
def decode32 (n : Nat) : ℚ :=
  (if n / 2147483648 % 2 = 1 then -1 else 1) *
  (if n / 8388608 % 256 = 0 then ((n % 8388608 : Nat) : ℚ) * pow2 (-149)
   else ((8388608 + n % 8388608 : Nat) : ℚ) * pow2 ((n / 8388608 % 256 : Nat) - 150))

/-- `math.Float32bits(float32(q))` for `|q| < 2^127`; the sign of zero is not kept. -/
def encode32 (q : ℚ) : Nat :=
  if q = 0 then 0
  else (if q < 0 then 2147483648 else 0) + ((expTo 24 (-149) q + 149).toNat * 8388608 +
    (rne (q / pow2 (expTo 24 (-149) q))).natAbs)

theorem rne_le {x : ℚ} {n : Int} (h : x ≤ n) : rne x ≤ n := by
  have hf : x.floor ≤ n := by
    have := (Rat.floor_le x).trans h
    exact_mod_cast this
  by_cases he : x.floor = n
  · have h1 : (n : ℚ) ≤ x := by rw [← he]; exact Rat.floor_le x
    have : x = n := le_antisymm h h1
    rw [this, rne_int]
  · unfold rne
    split
    · exact hf
    · split
      · omega
      · split <;> omega

theorem le_rne {x : ℚ} {n : Int} (h : (n : ℚ) ≤ x) : n ≤ rne x := by
  have hf : n ≤ x.floor := Rat.le_floor_iff.mpr h
  unfold rne
  split
  · exact hf
  · split
    · omega
    · split <;> omega

/-- The mantissa of the rounded number. -/
theorem mantissa {P : Nat} {emin : Int} (hP : 1 ≤ P) {q : ℚ} (hq : q ≠ 0) :
    (rne (q / pow2 (expTo P emin q))).natAbs ≤ 2 ^ P ∧
    (expTo P emin q = emin ∨ 2 ^ (P - 1) ≤ (rne (q / pow2 (expTo P emin q))).natAbs) ∧
    (0 < q → 0 ≤ rne (q / pow2 (expTo P emin q))) ∧ (q < 0 → rne (q / pow2 (expTo P emin q)) ≤ 0) := by
  obtain ⟨h1, h2, h3⟩ := expTo_spec (P := P) (emin := emin) hq
  rw [pow2_eq]
  generalize expTo P emin q = e at *
  have p : (0 : ℚ) < 2 ^ e := by positivity
  have c : ∀ k : Nat, (((2 : Int) ^ k : Int) : ℚ) = 2 ^ k := fun k => Int.cast_pow _ _
  have hlt : |q / 2 ^ e| < 2 ^ P := by
    rw [abs_div, abs_of_pos p, div_lt_iff₀ p, ← zpow_add_nat]
    exact h2
  obtain ⟨l, u⟩ := abs_lt.mp hlt
  have nn : ∀ k : Nat, ((2 ^ k : Nat) : Int) = 2 ^ k := fun k => by push_cast; rfl
  refine ⟨?_, ?_, ?_, ?_⟩
  · have a1 : rne (q / 2 ^ e) ≤ 2 ^ P := rne_le (by rw [c]; exact u.le)
    have a2 : -2 ^ P ≤ rne (q / 2 ^ e) := le_rne (by rw [Int.cast_neg, c]; exact l.le)
    have := nn P
    omega
  · refine h3.imp_right fun h3 => ?_
    have hge : (2 : ℚ) ^ (P - 1) ≤ |q / 2 ^ e| := by
      rw [abs_div, abs_of_pos p, le_div_iff₀ p]
      rw [topBit hP, c] at h3
      exact h3
    have := nn (P - 1)
    rcases le_total 0 (q / 2 ^ e) with h0 | h0
    · rw [abs_of_nonneg h0] at hge
      have : 2 ^ (P - 1) ≤ rne (q / 2 ^ e) := le_rne (by rw [c]; exact hge)
      omega
    · rw [abs_of_nonpos h0] at hge
      have : rne (q / 2 ^ e) ≤ -2 ^ (P - 1) := rne_le (by rw [Int.cast_neg, c]; linarith)
      omega
  · intro h
    exact le_rne (by rw [Int.cast_zero]; positivity)
  · intro h
    refine rne_le ?_
    rw [Int.cast_zero]
    exact (div_neg_of_neg_of_pos h p).le

theorem decode_abs {s m : Nat} {e : Int} (hs : s ≤ 1) (he : -149 ≤ e) (he2 : e ≤ 103) (hm : m ≤ 16777216)
    (h : e = -149 ∨ 8388608 ≤ m) :
    decode32 ((s * 2147483648 + ((e + 149).toNat * 8388608 + m)) % 4294967296) =
      (if s = 1 then -1 else 1) * ((m : ℚ) * 2 ^ e) := by
  obtain ⟨x, rfl⟩ : ∃ x : Nat, e = (x : Int) - 149 := ⟨(e + 149).toNat, by omega⟩
  have hx : ((x : Int) - 149 + 149).toNat = x := by omega
  rw [hx]
  have hx2 : x ≤ 252 := by omega
  have hx3 : x = 0 ∨ 8388608 ≤ m := by omega
  clear hx he he2 h
  rw [Nat.mod_eq_of_lt (by omega)]
  unfold decode32
  have hsn : (s * 2147483648 + (x * 8388608 + m)) / 2147483648 % 2 = s := by omega
  rw [hsn, pow2_eq, pow2_eq]
  congr 1
  rcases (by omega : m < 8388608 ∨ (8388608 ≤ m ∧ m < 16777216) ∨ m = 16777216) with h | ⟨h, h'⟩ | h
  · have x0 : x = 0 := by omega
    subst x0
    have a : (s * 2147483648 + (0 * 8388608 + m)) / 8388608 % 256 = 0 := by omega
    have c : (s * 2147483648 + (0 * 8388608 + m)) % 8388608 = m := by omega
    rw [if_pos a, c]
    norm_num
  · have a : (s * 2147483648 + (x * 8388608 + m)) / 8388608 % 256 = x + 1 := by omega
    have c : 8388608 + (s * 2147483648 + (x * 8388608 + m)) % 8388608 = m := by omega
    rw [a, c, if_neg (by omega)]
    congr 2
    push_cast
    ring
  · subst h
    have a : (s * 2147483648 + (x * 8388608 + 16777216)) / 8388608 % 256 = x + 2 := by omega
    have c : 8388608 + (s * 2147483648 + (x * 8388608 + 16777216)) % 8388608 = 8388608 := by omega
    rw [a, c, if_neg (by omega)]
    have : ((x + 2 : Nat) : Int) - 150 = (x : Int) - 149 + 1 := by push_cast; ring
    rw [this, zpow_add_one₀ (by norm_num)]
    push_cast
    ring

/-- The bits of `float32(q)` stand for the nearest float32 (ties to even). -/
theorem decode_encode {q : ℚ} (h : |q| < 2 ^ 127) : decode32 (encode32 q % 4294967296) = rnd32 q := by
  by_cases hq : q = 0
  · subst hq
    decide +kernel
  obtain ⟨e1, -, e3⟩ := expTo_spec (P := 24) (emin := -149) hq
  obtain ⟨m1, m2, m3, m4⟩ := mantissa (P := 24) (emin := -149) (by norm_num) hq
  have hr : rnd32 q = rne (q / pow2 (expTo 24 (-149) q)) * 2 ^ expTo 24 (-149) q := by
    rw [pow2_eq]; exact rndTo_eq hq
  unfold encode32
  rw [if_neg hq, hr]
  have he2 : expTo 24 (-149) q ≤ 103 := by
    rcases e3 with e3 | e3
    · rw [e3]; norm_num
    · have := e3.trans_lt h
      rw [← zpow_natCast] at this
      have := (zpow_lt_zpow_iff_right₀ (by norm_num : (1 : ℚ) < 2)).mp this
      push_cast at this
      omega
  generalize expTo 24 (-149) q = e at *
  generalize rne (q / pow2 e) = m at *
  norm_num at m1 m2
  rcases lt_or_gt_of_ne hq with h0 | h0
  · have := m4 h0
    have key := decode_abs (s := 1) (m := m.natAbs) (e := e) (by norm_num) e1 he2 m1 m2
    rw [one_mul] at key
    rw [if_pos h0, key, if_pos rfl]
    have : ((m.natAbs : Nat) : ℚ) = -m := by
      rw [Nat.cast_natAbs, abs_of_nonpos this, Int.cast_neg]
    rw [this]
    ring
  · have := m3 h0
    have key := decode_abs (s := 0) (m := m.natAbs) (e := e) (by norm_num) e1 he2 m1 m2
    rw [zero_mul] at key
    rw [if_neg (by linarith), key, if_neg (by norm_num)]
    have : ((m.natAbs : Nat) : ℚ) = m := by
      rw [Nat.cast_natAbs, abs_of_nonneg this]
    rw [this]
    ring

/-- Every float32 is a float64. -/
theorem binary64_of_32 {x : ℚ} (h : Binary32 x) : Binary64 x := by
  obtain ⟨m, e, hm, he, rfl⟩ := h
  exact ⟨m, e, hm.trans (by norm_num), by omega, rfl⟩

/-- Decoding as a float64 (Go converts `float64(f)`). -/
def f32 (n : Nat) : F64 := of (decode32 n)

theorem f32_encode {a : F64} (h : |a.val| < 2 ^ 127) : f32 (encode32 a.val % 4294967296) = of (rnd32 a.val) := by
  unfold f32
  rw [decode_encode h]

/-! ### The hypotheses are met -/

/-- One third, and the sum of the numbers next to one tenth and two tenths. -/
example : |rnd (1 / 3) - 1 / 3| ≤ |(1 / 3 : ℚ)| / 2 ^ 53 := rnd_error (by
  refine (zpow_le_zpow_right₀ (by norm_num) (by norm_num : (-1022 : Int) ≤ -2)).trans ?_
  rw [abs_of_pos (by norm_num)]
  norm_num)

example := add_error (rnd_mem (1 / 10)) (rnd_mem (2 / 10))

example : Binary64 (rnd (2 / 10) - rnd (11 / 100)) := sterbenz (rnd_mem _) (rnd_mem _) (rnd_mono (by norm_num)) (by decide +kernel)
example (r : ℚ) (h : NearestEven Binary64 (1 / 3) r) : r = rnd (1 / 3) := nearestEven_unique h (rnd_nearestEven _)
example : decode32 (encode32 (1 / 10) % 4294967296) = rnd32 (1 / 10) := decode_encode (by
  rw [abs_of_pos (by norm_num)]
  norm_num)

end F64
end StlDice
