import Verif.Lemmas.IeeeLit
import Mathlib.Tactic.Linarith
import Mathlib.Tactic.Positivity

/-! # C113: all float64 numbers as text -/

namespace StlDice.IeeeT
open Spec F64 Flag Ieee

/-! ## The exponent is not counted beyond 10000 -/

theorem capped_spec {X : Bytes} : ∀ {e t t' : Nat}, Mant 10 X → (e = t ∨ 10000 ≤ e ∧ 10000 ≤ t) → digitsIn 10 t X = some t' →
    capped e X = t' ∨ 10000 ≤ capped e X ∧ 10000 ≤ t' := by
  induction X with
  | nil =>
    intro e t t' _ h hd
    rw [digitsIn] at hd
    injection hd with hd
    rw [← hd]
    exact h
  | cons c X ih =>
    intro e t t' hm h hd
    have hm' : Mant 10 X := fun c hc => hm c (List.mem_cons_of_mem _ hc)
    show (capped (if c = 95 then e else if e < 10000 then e * 10 + (c.toNat - 48) else e) X = t' ∨ _)
    by_cases hc : c = 95
    · rw [if_pos hc]
      rw [digitsIn, if_pos hc] at hd
      have := ih hm' h hd
      show _ ∨ 10000 ≤ capped (if c = 95 then e else _) X ∧ _
      rw [if_pos hc]
      exact this
    · have hdig : isDigit c = true := (chars c).2.2.1.mpr ⟨hc, hm c List.mem_cons_self⟩
      have hv := (chars c).2.2.2.2.2.2.1 hdig
      have hlt : c.toNat - 48 < 10 := by
        unfold isDigit at hdig
        simp only [Bool.and_eq_true, decide_eq_true_eq] at hdig
        omega
      rw [digitsIn_digit (by simp) hv hlt] at hd
      show _ ∨ 10000 ≤ capped (if c = 95 then e else _) X ∧ _
      rw [if_neg hc]
      refine ih hm' ?_ hd
      split
      · rcases h with h | h
        · subst h; exact .inl rfl
        · omega
      · right
        omega

/-! ## Very large and very small numbers -/

theorem rnd_huge {q : ℚ} (h : (2 : ℚ) ^ (1024 : Int) ≤ q) : (2 : ℚ) ^ (1024 : Nat) ≤ rnd q := by
  have e : rnd ((2 : ℚ) ^ (1024 : Int)) = (2 : ℚ) ^ (1024 : Int) :=
    rnd_of_mem ⟨1, 1024, by norm_num, by norm_num, by rw [Int.cast_one, one_mul]⟩
  have := rnd_mono h
  rw [e] at this
  rwa [← zpow_natCast]

theorem rnd_tiny {q : ℚ} (h0 : 0 ≤ q) (h : q ≤ (2 : ℚ) ^ (-1076 : Int)) : rnd q = 0 := by
  have h1 := rnd_nearest q binary64_zero
  rw [sub_zero, abs_of_nonneg h0, abs_sub_comm] at h1
  by_contra hne
  obtain ⟨n, e, -, he, hr⟩ := rnd_mem q
  have hn : n ≠ 0 := by
    rintro rfl
    rw [Int.cast_zero, zero_mul] at hr
    exact hne hr
  have h2 : (1 : ℚ) ≤ |(n : ℚ)| := by
    rw [← Int.cast_abs]
    exact_mod_cast Int.one_le_abs hn
  have h3 : (2 : ℚ) ^ (-1074 : Int) ≤ |rnd q| := by
    rw [hr, abs_mul, abs_of_pos (by positivity : (0 : ℚ) < 2 ^ e)]
    calc (2 : ℚ) ^ (-1074 : Int) ≤ 2 ^ e := zpow_le_zpow_right₀ (by norm_num) he
      _ = 1 * 2 ^ e := (one_mul _).symm
      _ ≤ _ := mul_le_mul_of_nonneg_right h2 (by positivity)
  have h4 : (2 : ℚ) ^ (-1074 : Int) = 4 * 2 ^ (-1076 : Int) := by
    have : (-1074 : Int) = 2 + -1076 := by norm_num
    rw [this, zpow_add₀ (by norm_num)]
    norm_num
  have h5 : |rnd q| ≤ |rnd q - q| + |q| := by
    have := abs_add_le (rnd q - q) q
    rwa [sub_add_cancel] at this
  rw [abs_of_nonneg h0] at h5
  have h6 : (0 : ℚ) < 2 ^ (-1076 : Int) := by positivity
  linarith

/-- Two exponents the code need not tell apart. -/
def Alike (e t : Int) : Prop := e = t ∨ 10000 ≤ e ∧ 10000 ≤ t ∨ e ≤ -10000 ∧ t ≤ -10000

theorem alike_of {c N : Nat} (neg : Bool) (h : c = N ∨ 10000 ≤ c ∧ 10000 ≤ N) :
    Alike (if neg then -(c : Int) else c) (if neg then -(N : Int) else N) := by
  rcases h with rfl | h
  · exact .inl rfl
  · cases neg with
    | false => right; left; rw [if_neg (by decide), if_neg (by decide)]; omega
    | true => right; right; rw [if_pos rfl, if_pos rfl]; omega

theorem big_of {b : ℚ} (hb : 2 ≤ b) {n : Nat} (hn : n ≠ 0) {x : Int} (hx : 1024 ≤ x) : (2 : ℚ) ^ (1024 : Int) ≤ n * b ^ x := by
  have h1 : (1 : ℚ) ≤ n := by exact_mod_cast Nat.one_le_iff_ne_zero.mpr hn
  calc (2 : ℚ) ^ (1024 : Int) ≤ 2 ^ x := zpow_le_zpow_right₀ (by norm_num) hx
    _ ≤ b ^ x := zpow_le_zpow_left₀ (by omega) (by norm_num) hb
    _ = 1 * b ^ x := (one_mul _).symm
    _ ≤ _ := mul_le_mul_of_nonneg_right h1 (by positivity)

theorem small_of {b : ℚ} (hb : 2 ≤ b) {n D : Nat} (hn : (n : ℚ) < b ^ D) {x : Int} (hx : x + D ≤ -1076) :
    n * b ^ x ≤ (2 : ℚ) ^ (-1076 : Int) := by
  have b0 : (0 : ℚ) < b := by linarith
  calc n * b ^ x ≤ b ^ D * b ^ x := mul_le_mul_of_nonneg_right hn.le (by positivity)
    _ = b ^ ((D : Int) + x) := by rw [zpow_add₀ b0.ne', zpow_natCast]
    _ ≤ b ^ (-1076 : Int) := zpow_le_zpow_right₀ (by linarith) (by omega)
    _ ≤ 2 ^ (-1076 : Int) := by
      rw [zpow_neg, zpow_neg]
      apply inv_anti₀ (by positivity)
      exact zpow_le_zpow_left₀ (by norm_num) (by norm_num) hb

theorem alike_round {b : ℚ} (hb : 2 ≤ b) {n D : Nat} (hn : (n : ℚ) < b ^ D) (hD : D ≤ 8000) {j : Int} (j0 : 0 ≤ j) (hj : j ≤ 8000)
    {e t : Int} (h : Alike e t) :
    rnd (n * b ^ (e - j)) = rnd (n * b ^ (t - j)) ∨
      (2 : ℚ) ^ (1024 : Nat) ≤ rnd (n * b ^ (e - j)) ∧ (2 : ℚ) ^ (1024 : Nat) ≤ rnd (n * b ^ (t - j)) := by
  have b0 : (0 : ℚ) < b := by linarith
  rcases h with rfl | ⟨h1, h2⟩ | ⟨h1, h2⟩
  · exact .inl rfl
  · by_cases h0 : n = 0
    · subst h0; left; simp
    · exact .inr ⟨rnd_huge (big_of hb h0 (by omega)), rnd_huge (big_of hb h0 (by omega))⟩
  · left
    rw [rnd_tiny (by positivity) (small_of hb hn (by omega)), rnd_tiny (by positivity) (small_of hb hn (by omega))]

theorem litExp_alike {base : Nat} {ex : Bytes} {e t : Int} (h : LitExp base ex e t) : Alike e t := by
  rcases h with ⟨-, -, rfl, rfl⟩ | ⟨c, sg, neg, X, N, -, -, -, hX, rfl, rfl⟩
  · exact .inl rfl
  · exact alike_of neg (capped_spec (digitText_mant (.inl rfl) hX) (.inl rfl) (digitText_reads (by simp) hX).1)

theorem scaled_nonneg (base n : Nat) (e : Int) (k : Nat) : 0 ≤ scaled base n e k := by
  unfold scaled
  split <;> positivity

/-- What the code computes and the value are rounded alike, unless the text is very long. -/
theorem lit_round {s : Bytes} {neg : Bool} {v u : ℚ} (h : Lit s neg v u) (hs : s.length ≤ 2000) :
    0 ≤ v ∧ 0 ≤ u ∧ (rnd v = rnd u ∨ (2 : ℚ) ^ (1024 : Nat) ≤ rnd v ∧ (2 : ℚ) ^ (1024 : Nat) ≤ rnd u) := by
  obtain ⟨base, p, sg, I, dF, F, ex, e, t, a, b, hb, rfl, hsg, hp, hI, hF, hd, hne, hx, rfl, rfl⟩ := h
  refine ⟨scaled_nonneg _ _ _ _, scaled_nonneg _ _ _ _, ?_⟩
  obtain ⟨mI, -, dI⟩ := (litInt_iff hb I a).mp hI
  obtain ⟨mF, -, dF'⟩ := (group_iff hb (i := .other) (.inr rfl) F b).mp hF
  obtain ⟨m, hm, hn⟩ := mant_reads hb (I ++ F) (Mant.append.mpr ⟨mI, mF⟩)
  have hn := hn 0
  rw [digitsIn_two hb mF dI dF', Nat.zero_mul, Nat.zero_add] at hn
  injection hn with hn
  rw [hn]
  have hF2 : F.length ≤ dF.length := by
    rcases hd with ⟨rfl, rfl⟩ | rfl
    · simp
    · simp
  have hl : I.length + F.length ≤ 2000 := by
    simp only [List.length_append] at hs
    omega
  have hc : digitCount (I ++ F) ≤ 2000 := by
    have := digitCount_le (I ++ F)
    rw [List.length_append] at this
    omega
  have hk : digitCount F ≤ 2000 := by
    have := digitCount_le F
    omega
  have ha := litExp_alike hx
  unfold scaled
  rcases hb with rfl | rfl
  · rw [if_neg (by decide), if_neg (by decide)]
    refine alike_round (b := 10) (by norm_num) (D := digitCount (I ++ F)) ?_ (by omega) (by omega) (by omega) ha
    exact_mod_cast hm
  · rw [if_pos rfl, if_pos rfl]
    refine alike_round (b := 2) (by norm_num) (D := 4 * digitCount (I ++ F)) ?_ (by omega) (by omega) (by omega) ha
    rw [pow_mul]
    norm_num
    exact_mod_cast hm

/-! ## Infinities and NaN -/

theorem lower_all : ∀ n : Nat, n < 256 → ∀ d ∈ ascii "infinitynan", (toLower (UInt8.ofNat n) = d ↔ UInt8.ofNat n = d ∨ UInt8.ofNat n + 32 = d) := by
  decide +kernel

theorem lower_iff (c : UInt8) {d : UInt8} (hd : d ∈ ascii "infinitynan") : toLower c = d ↔ c = d ∨ c + 32 = d := by
  have := lower_all c.toNat (UInt8.toNat_lt c) d hd
  rwa [UInt8.ofNat_toNat] at this

theorem anyCase_iff {s : Bytes} {w : String} (hw : ∀ d ∈ ascii w, d ∈ ascii "infinitynan") : AnyCase s w ↔ s.map toLower = ascii w := by
  unfold AnyCase
  generalize ascii w = p at *
  constructor
  · rintro ⟨h1, h2⟩
    apply List.ext_getElem?
    intro i
    rw [List.getElem?_map]
    cases hs : s[i]? with
    | none =>
      have := List.getElem?_eq_none_iff.mp hs
      rw [List.getElem?_eq_none (by omega)]
      rfl
    | some c =>
      have hi := (List.getElem?_eq_some_iff.mp hs).1
      have hp : p[i]? = some (p[i]'(by omega)) := List.getElem?_eq_getElem (by omega)
      rw [hp, Option.map_some]
      congr 1
      exact (lower_iff c (hw _ (List.getElem_mem _))).mpr (h2 i c _ hs hp)
  · intro h
    refine ⟨by rw [← h, List.length_map], ?_⟩
    intro i c d hc hd
    have h1 : (s.map toLower)[i]? = some (toLower c) := by rw [List.getElem?_map, hc]; rfl
    rw [h, hd] at h1
    injection h1 with h1
    have hm : d ∈ p := List.mem_of_getElem? hd
    exact (lower_iff c (hw d hm)).mp h1.symm

theorem prefixLen_le (s p : Bytes) : prefixLen s p ≤ s.length ∧ prefixLen s p ≤ p.length := by
  induction s generalizing p with
  | nil => cases p <;> exact ⟨Nat.zero_le _, Nat.zero_le _⟩
  | cons c s ih =>
    cases p with
    | nil => exact ⟨Nat.zero_le _, Nat.zero_le _⟩
    | cons d p =>
      rw [prefixLen]
      have := ih p
      split
      · simp only [List.length_cons]; omega
      · exact ⟨Nat.zero_le _, Nat.zero_le _⟩

theorem le_prefixLen (k : Nat) : ∀ (s p : Bytes), k ≤ s.length → k ≤ p.length →
    (k ≤ prefixLen s p ↔ (s.take k).map toLower = p.take k) := by
  induction k with
  | zero => intro s p _ _; simp
  | succ k ih =>
    intro s p hs hp
    cases s with
    | nil => simp at hs
    | cons c s =>
      cases p with
      | nil => simp at hp
      | cons d p =>
        rw [prefixLen, List.take_succ_cons, List.take_succ_cons, List.map_cons]
        have := ih s p (by simpa using hs) (by simpa using hp)
        split
        · rename_i h
          rw [Nat.add_le_add_iff_right, this, h]
          simp
        · rename_i h
          simp [h]

theorem infinity_iff (neg : Bool) (s : Bytes) (x : Ieee) : infinity neg s = some (x, []) ↔
    x = .inf neg ∧ (AnyCase s "inf" ∨ AnyCase s "infinity") := by
  rw [anyCase_iff (by decide), anyCase_iff (by decide)]
  have hl : (ascii "infinity").length = 8 := by decide
  have ht : (ascii "infinity").take 3 = ascii "inf" := by decide
  obtain ⟨l1, l2⟩ := prefixLen_le s (ascii "infinity")
  unfold infinity
  constructor
  · intro h
    split at h
    · rename_i hn
      injection h with h
      injection h with h1 h2
      refine ⟨h1.symm, ?_⟩
      rw [List.drop_eq_nil_iff] at h2
      have hP : 3 ≤ s.length := by
        unfold infLen at hn
        split at hn <;> omega
      rcases hn with hn | hn
      · left
        rw [hn] at h2
        have := (le_prefixLen 3 s (ascii "infinity") hP (by omega)).mp (by unfold infLen at hn; split at hn <;> omega)
        rwa [ht, List.take_of_length_le (by omega)] at this
      · right
        have h8 : prefixLen s (ascii "infinity") = 8 := by unfold infLen at hn; split at hn <;> omega
        rw [hn] at h2
        have := (le_prefixLen 8 s (ascii "infinity") (by omega) (by omega)).mp (by omega)
        rwa [List.take_of_length_le (by omega), List.take_of_length_le (by omega)] at this
    · cases h
  · rintro ⟨rfl, h | h⟩
    · have hs : s.length = 3 := by rw [← List.length_map (f := toLower), h]; rfl
      have := (le_prefixLen 3 s (ascii "infinity") (by omega) (by omega)).mpr (by rw [List.take_of_length_le (by omega), h, ht])
      have e : infLen (prefixLen s (ascii "infinity")) = 3 := by
        have e : prefixLen s (ascii "infinity") = 3 := by omega
        rw [e]; rfl
      rw [e, if_pos (.inl rfl), List.drop_of_length_le (by omega)]
    · have hs : s.length = 8 := by rw [← List.length_map (f := toLower), h]; rfl
      have := (le_prefixLen 8 s (ascii "infinity") (by omega) (by omega)).mpr
        (by rw [List.take_of_length_le (by omega), List.take_of_length_le (by omega), h])
      have e : infLen (prefixLen s (ascii "infinity")) = 8 := by
        have e : prefixLen s (ascii "infinity") = 8 := by omega
        rw [e]; rfl
      rw [e, if_pos (.inr rfl), List.drop_of_length_le (by omega)]

/-- What follows the sign begins neither like an infinity nor like NaN. -/
theorem special_none {sg m : Bytes} {neg : Bool} (hs : Sign sg neg) (hm : ∀ c r, m = c :: r → c = 46 ∨ isDigit c = true) :
    special (sg ++ m) = none := by
  have letters : ∀ c : UInt8, c = 46 ∨ isDigit c = true → c ≠ 43 ∧ c ≠ 45 ∧ c ≠ 105 ∧ c ≠ 73 ∧ c ≠ 110 ∧ c ≠ 78 := by
    intro c hc
    refine ⟨?_, ?_, ?_, ?_, ?_, ?_⟩ <;> (rintro rfl; revert hc; decide)
  have low : ∀ n, n < 256 → (UInt8.ofNat n = 46 ∨ isDigit (UInt8.ofNat n) = true) → toLower (UInt8.ofNat n) ≠ 105 := by decide +kernel
  have inf : ∀ b, infinity b m = none := by
    intro b
    have e : prefixLen m (ascii "infinity") = 0 := by
      cases m with
      | nil => rfl
      | cons c r =>
        have := low c.toNat (UInt8.toNat_lt c)
        rw [UInt8.ofNat_toNat] at this
        show (if toLower c = 105 then _ else 0) = 0
        rw [if_neg (this (hm c r rfl))]
    unfold infinity
    rw [e, if_neg (by decide)]
  rcases hs with ⟨rfl, -⟩ | ⟨rfl, -⟩ | ⟨rfl, -⟩
  · rw [List.nil_append]
    cases m with
    | nil => rfl
    | cons c r =>
      obtain ⟨a1, a2, a3, a4, a5, a6⟩ := letters c (hm c r rfl)
      rw [special, if_neg (by simp [a1, a2]), if_neg (by simp [a3, a4]), if_neg (by simp [a5, a6])]
  · exact inf _
  · exact inf _

theorem special_iff (s : Bytes) (x : Ieee) : special s = some (x, []) ↔ SpecialText s x := by
  constructor
  · intro h
    cases s with
    | nil => cases h
    | cons c s =>
      rw [special] at h
      split at h
      · rename_i hc
        obtain ⟨rfl, hw⟩ := (infinity_iff _ _ _).mp h
        rcases hc with rfl | rfl
        · exact SpecialText.inf (sg := ascii "+") (.inr (.inl ⟨rfl, rfl⟩)) hw
        · exact SpecialText.inf (sg := ascii "-") (.inr (.inr ⟨rfl, rfl⟩)) hw
      · split at h
        · obtain ⟨rfl, hw⟩ := (infinity_iff _ _ _).mp h
          exact SpecialText.inf (sg := []) (.inl ⟨rfl, rfl⟩) hw
        · split at h
          · split at h
            · rename_i hn
              injection h with h
              injection h with h1 h2
              rw [← h1]
              refine .nan ((anyCase_iff (by decide)).mpr ?_)
              obtain ⟨l1, -⟩ := prefixLen_le (c :: s) (ascii "nan")
              have h3 : (c :: s).length = 3 := by
                rw [List.drop_eq_nil_iff] at h2
                simp only [List.length_cons] at *
                omega
              have := (le_prefixLen 3 (c :: s) (ascii "nan") (by omega) (by decide)).mp (by omega)
              rw [List.take_of_length_le (by omega)] at this
              exact this
            · cases h
          · cases h
  · intro h
    cases h with
    | @inf sg neg w hs h =>
      have head : ∃ c r, w = c :: r ∧ (c = 105 ∨ c = 73) := by
        have hl : ∀ n, n < 256 → toLower (UInt8.ofNat n) = 105 → (UInt8.ofNat n = 105 ∨ UInt8.ofNat n = 73) := by decide +kernel
        have : ∃ r, w.map toLower = 105 :: r := by
          rcases h with h | h
          · exact ⟨_, (anyCase_iff (by decide)).mp h⟩
          · exact ⟨_, (anyCase_iff (by decide)).mp h⟩
        obtain ⟨r, hr⟩ := this
        cases w with
        | nil => cases hr
        | cons c w =>
          rw [List.map_cons] at hr
          injection hr with hr _
          have := hl c.toNat (UInt8.toNat_lt c)
          rw [UInt8.ofNat_toNat] at this
          exact ⟨c, w, rfl, this hr⟩
      have hi := fun b => (infinity_iff b w (.inf b)).mpr ⟨rfl, h⟩
      rcases hs with ⟨rfl, rfl⟩ | ⟨rfl, rfl⟩ | ⟨rfl, rfl⟩
      · obtain ⟨c, r, rfl, hc⟩ := head
        rw [List.nil_append, special, if_neg, if_pos hc]
        · exact hi false
        · rcases hc with rfl | rfl <;> decide
      · exact hi false
      · exact hi true
    | nan h =>
      have h := (anyCase_iff (by decide)).mp h
      have hl : ∀ n, n < 256 → toLower (UInt8.ofNat n) = 110 → (UInt8.ofNat n = 110 ∨ UInt8.ofNat n = 78) := by decide +kernel
      cases s with
      | nil => cases h
      | cons c s =>
        have h1 := h
        rw [List.map_cons] at h1
        injection h1 with h1 h2
        have hc := hl c.toNat (UInt8.toNat_lt c)
        rw [UInt8.ofNat_toNat] at hc
        have hc := hc h1
        have hlen : (c :: s).length = 3 := by rw [← List.length_map (f := toLower), h]; rfl
        have h3 := (le_prefixLen 3 (c :: s) (ascii "nan") (by omega) (by decide)).mpr (by rw [List.take_of_length_le (by omega), h]; rfl)
        obtain ⟨-, l2⟩ := prefixLen_le (c :: s) (ascii "nan")
        have l3 : (ascii "nan").length = 3 := by decide
        rw [special, if_neg, if_neg, if_pos hc, if_pos (by omega), List.drop_of_length_le]
        · simp only [List.length_cons] at hlen; omega
        · rcases hc with rfl | rfl <;> decide
        · rcases hc with rfl | rfl <;> decide

theorem magnitude_head {m : Bytes} {v : ℚ} (h : Magnitude m v) : ∀ c r, m = c :: r → c = 46 ∨ isDigit c = true := by
  have mant : ∀ {s : Bytes} {v : ℚ}, Mantissa 10 s v → ∃ c r, s = c :: r ∧ (c = 46 ∨ isDigit c = true) := by
    intro s v hm
    obtain ⟨I, dF, F, a, b, rfl, hI, hF, hd, hne, -⟩ := (mantissa_iff (.inl rfl) _ _).mp hm
    rcases hI with ⟨rfl, -⟩ | hI
    · rcases hd with ⟨rfl, rfl⟩ | rfl
      · exact absurd rfl hne
      · exact ⟨46, F, rfl, .inl rfl⟩
    · obtain ⟨-, -, h1, h2⟩ := digitText_reads (by simp) hI
      obtain ⟨d, t, rfl, hd'⟩ := head_digit h1 h2 (digitText_mant (.inl rfl) hI)
      exact ⟨d, t ++ dF, rfl, .inr hd'⟩
  intro c r hc
  cases h with
  | dec h =>
    obtain ⟨d, t, rfl, hd⟩ := mant h
    injection hc with h1 _
    rw [← h1]; exact hd
  | decExp h he =>
    obtain ⟨d, t, rfl, hd⟩ := mant h
    injection hc with h1 _
    rw [← h1]; exact hd
  | hex hp h he =>
    rcases hp with rfl | rfl <;> (injection hc with h1 _; rw [← h1]; exact .inr (by decide))
  | hexUnder hp h h0 he =>
    rcases hp with rfl | rfl <;> (injection hc with h1 _; rw [← h1]; exact .inr (by decide))

/-! ## Reading -/

/-- **C113.** `ParseFloat` reads exactly the infinities, NaN and the floating-point literals of Go, each as the nearest float64, and
    refuses literals that round to `2^1024` or more (texts of up to 2000 bytes). -/
theorem parse_float_iff {s : Bytes} (hs : s.length ≤ 2000) (x : Ieee) : Ieee.parse s = some x ↔ FloatOf s x := by
  unfold Ieee.parse
  constructor
  · intro h
    split at h
    · rename_i y r hsp
      split at h
      · rename_i hr
        injection h with h
        subst hr h
        exact .special ((special_iff _ _).mp hsp)
      · cases h
    · split at h
      · cases h
      · rename_i neg v r hr
        split at h
        · cases h
        · rename_i h0
          rw [not_not] at h0
          subst h0
          split at h
          · rename_i hlt
            injection h with h
            obtain ⟨u, hl⟩ := (raw_iff s neg v).mp ((readFloat_iff s neg v).mp hr)
            obtain ⟨sg, m, rfl, hsg, hm⟩ := (lit_iff s neg u).mp ⟨v, hl⟩
            obtain ⟨v0, u0, hr⟩ := lit_round hl hs
            rw [abs_of_nonneg v0] at hlt
            have e : rnd |v| = rnd u := by
              rw [abs_of_nonneg v0]
              rcases hr with h | ⟨h, -⟩
              · exact h
              · exact absurd hlt (not_lt.mpr h)
            rw [← h]
            generalize_proofs ok
            revert ok
            rw [e]
            intro ok
            exact .number hsg hm ok
          · cases h
  · intro h
    cases h with
    | special h =>
      rw [(special_iff _ _).mpr h]
      dsimp only
      rw [if_pos rfl]
    | @number sg neg m u hsg hm ok =>
      obtain ⟨v, hl⟩ := (lit_iff _ neg u).mpr ⟨sg, m, rfl, hsg, hm⟩
      rw [special_none hsg (magnitude_head hm), (readFloat_iff _ neg v).mpr ((raw_iff _ neg v).mpr ⟨u, hl⟩)]
      obtain ⟨v0, u0, hr⟩ := lit_round hl hs
      have e : rnd |v| = rnd u := by
        rw [abs_of_nonneg v0]
        rcases hr with h | ⟨-, h⟩
        · exact h
        · exact absurd ok.2.1 (not_lt.mpr h)
      dsimp only
      rw [if_neg (by simp), dif_pos (by rw [e]; exact ok.2.1)]
      congr 2

end StlDice.IeeeT
