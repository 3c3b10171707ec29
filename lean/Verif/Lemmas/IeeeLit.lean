import Verif.Lemmas.IeeeRead
import Mathlib.Tactic.FieldSimp

/-! # The parts of a float64 text and the grammar -/

namespace StlDice.IeeeT
open Spec F64 Flag Ieee

theorem digitCount_append (a b : Bytes) : digitCount (a ++ b) = digitCount a + digitCount b := by
  unfold digitCount
  rw [List.filter_append, List.length_append]

theorem digitText_count {base : Nat} (hb : Base base) {s : Bytes} {n : Nat} (h : DigitText base s n) : digitCount s ≠ 0 := by
  obtain ⟨-, -, h1, h2⟩ := digitText_reads hb.mem h
  cases s with
  | nil => exact absurd rfl h1
  | cons c s =>
    rw [digitCount_cons, if_neg]
    · omega
    · rintro rfl
      exact h2 rfl

theorem optDigits_count {base : Nat} (hb : Base base) {s : Bytes} {n : Nat} (h : OptDigits base s n) : digitCount s = 0 ↔ s = [] := by
  rcases h with ⟨rfl, -⟩ | h
  · simp [digitCount]
  · constructor
    · intro h0; exact absurd h0 (digitText_count hb h)
    · rintro rfl; rfl

/-- The mantissa in one piece. -/
theorem mantissa_iff {base : Nat} (hb : Base base) (s : Bytes) (v : ℚ) : Mantissa base s v ↔
    ∃ I dF F a b, s = I ++ dF ∧ OptDigits base I a ∧ OptDigits base F b ∧ (dF = [] ∧ F = [] ∨ dF = 46 :: F) ∧
      digitCount (I ++ F) ≠ 0 ∧ v = a + b / base ^ digitCount F := by
  constructor
  · intro h
    cases h with
    | @whole _ n h =>
      refine ⟨s, [], [], n, 0, (List.append_nil _).symm, .inr h, .inl ⟨rfl, rfl⟩, .inl ⟨rfl, rfl⟩, ?_, by simp⟩
      rw [List.append_nil]
      exact digitText_count hb h
    | @point t n h =>
      refine ⟨t, [46], [], n, 0, rfl, .inr h, .inl ⟨rfl, rfl⟩, .inr rfl, ?_, by simp⟩
      rw [List.append_nil]
      exact digitText_count hb h
    | @frac t n h =>
      exact ⟨[], 46 :: t, t, 0, n, rfl, .inl ⟨rfl, rfl⟩, .inr h, .inr rfl, digitText_count hb h, by simp⟩
    | @both t u m n hs ht =>
      refine ⟨t, 46 :: u, u, m, n, by rw [List.append_assoc]; rfl, .inr hs, .inr ht, .inr rfl, ?_, rfl⟩
      rw [digitCount_append]
      have := digitText_count hb hs
      omega
  · rintro ⟨I, dF, F, a, b, rfl, hI, hF, hd, hne, rfl⟩
    rcases hI with ⟨rfl, rfl⟩ | hI
    · rcases hF with ⟨rfl, rfl⟩ | hF
      · exact absurd rfl hne
      · rcases hd with ⟨-, rfl⟩ | rfl
        · exact absurd rfl hne
        · rw [Nat.cast_zero, zero_add]
          exact .frac hF
    · rcases hF with ⟨rfl, rfl⟩ | hF
      · rw [Nat.cast_zero, zero_div, add_zero]
        rcases hd with ⟨rfl, -⟩ | rfl
        · rw [List.append_nil]
          exact .whole hI
        · exact .point hI
      · rcases hd with ⟨-, rfl⟩ | rfl
        · exact absurd rfl (digitText_count hb hF)
        · have := Mantissa.both hI hF
          rw [List.append_assoc] at this
          exact this

/-- The exponent part: the value the code computes and the one meant. -/
def LitExp (base : Nat) (s : Bytes) (e t : Int) : Prop :=
  base = 10 ∧ s = [] ∧ e = 0 ∧ t = 0 ∨
  ∃ c sg neg X N, s = c :: (sg ++ X) ∧ (base = 10 ∧ (c = 101 ∨ c = 69) ∨ base = 16 ∧ (c = 112 ∨ c = 80)) ∧ Sign sg neg ∧
    DigitText 10 X N ∧ e = (if neg then -(capped 0 X : Int) else capped 0 X) ∧ t = (if neg then -(N : Int) else N)

/-- The digits before the point, after the prefix. -/
def LitInt (base : Nat) (s : Bytes) (a : Nat) : Prop := OptDigits base s a ∨ base = 16 ∧ ∃ t, s = 95 :: t ∧ DigitText base t a

/-- The parts of a number by the grammar; `v` is what the code computes, `u` the value. -/
def Lit (s : Bytes) (neg : Bool) (v u : ℚ) : Prop :=
  ∃ base p sg I dF F ex e t a b, Base base ∧ s = sg ++ (p ++ (I ++ (dF ++ ex))) ∧ Sign sg neg ∧ RawPrefix base p ∧ LitInt base I a ∧
    OptDigits base F b ∧ (dF = [] ∧ F = [] ∨ dF = 46 :: F) ∧ digitCount (I ++ F) ≠ 0 ∧ LitExp base ex e t ∧
    v = scaled base (a * base ^ digitCount F + b) e (digitCount F) ∧ u = scaled base (a * base ^ digitCount F + b) t (digitCount F)

theorem usLoop_sign {hex : Bool} {sg X : Bytes} {neg : Bool} (h : Sign sg neg) : usLoop hex .other (sg ++ X) = usLoop hex .other X := by
  rcases h with ⟨rfl, -⟩ | ⟨rfl, -⟩ | ⟨rfl, -⟩
  · rfl
  · have := usLoop_sep (hex := hex) (c := 43) (by decide) (by intro _; decide) .other [] X
    exact this
  · have := usLoop_sep (hex := hex) (c := 45) (by decide) (by intro _; decide) .other [] X
    exact this

theorem digit_iff10 (X : Bytes) : (X ≠ [] ∧ X.head? ≠ some 95 ∧ Mant 10 X ∧ usLoop false .other X = true) ↔ ∃ N, DigitText 10 X N := by
  have hb : Base 10 := .inl rfl
  constructor
  · rintro ⟨h0, h95, hm, hu⟩
    obtain ⟨N, -, hN⟩ := mant_reads hb X hm
    rcases (group_iff hb (i := .other) (.inr rfl) X _).mpr ⟨hm, hu, hN 0⟩ with ⟨e, -⟩ | h
    · exact absurd e h0
    · exact ⟨_, h⟩
  · rintro ⟨N, h⟩
    obtain ⟨-, -, h1, h2⟩ := digitText_reads hb.mem h
    exact ⟨h1, h2, digitText_mant hb h, usLoop_digits hb.mem h _⟩

theorem exp_iff {base : Nat} (hb : Base base) (j : Last) (A ex : Bytes) (e : Int) :
    (RawExp base ex e ∧ usLoop (base == 16) j (A ++ ex) = true) ↔ (usLoop (base == 16) j A = true ∧ ∃ t, LitExp base ex e t) := by
  have sep : ∀ (c : UInt8) (sg X : Bytes) (neg : Bool), (base = 10 ∧ (c = 101 ∨ c = 69) ∨ base = 16 ∧ (c = 112 ∨ c = 80)) → Sign sg neg → Mant 10 X →
      usLoop (base == 16) j (A ++ c :: (sg ++ X)) = (usLoop (base == 16) j A && usLoop false .other X) := by
    intro c sg X neg hc hs hX
    rw [usLoop_sep, usLoop_sign hs]
    · cases (base == 16) with
      | false => rfl
      | true => rw [usLoop_mant hX]
    · rcases hc with ⟨rfl, rfl | rfl⟩ | ⟨rfl, rfl | rfl⟩ <;> decide
    · rcases hc with ⟨rfl, rfl | rfl⟩ | ⟨rfl, rfl | rfl⟩ <;> decide
  constructor
  · rintro ⟨⟨rfl, rfl, rfl⟩ | ⟨c, sg, neg, X, rfl, hc, hs, h0, h95, hm, rfl⟩, hu⟩
    · rw [List.append_nil] at hu
      exact ⟨hu, 0, .inl ⟨rfl, rfl, rfl, rfl⟩⟩
    · rw [sep c sg X neg hc hs hm, Bool.and_eq_true] at hu
      obtain ⟨N, hN⟩ := (digit_iff10 X).mp ⟨h0, h95, hm, hu.2⟩
      exact ⟨hu.1, _, .inr ⟨c, sg, neg, X, N, rfl, hc, hs, hN, rfl, rfl⟩⟩
  · rintro ⟨hu, t, ⟨rfl, rfl, rfl, rfl⟩ | ⟨c, sg, neg, X, N, rfl, hc, hs, hN, rfl, rfl⟩⟩
    · rw [List.append_nil]
      exact ⟨.inl ⟨rfl, rfl, rfl⟩, hu⟩
    · obtain ⟨h0, h95, hm, hX⟩ := (digit_iff10 X).mpr ⟨N, hN⟩
      refine ⟨.inr ⟨c, sg, neg, X, rfl, hc, hs, h0, h95, hm, rfl⟩, ?_⟩
      rw [sep c sg X neg hc hs hm, hu, hX]
      rfl

/-- What `underscoreOK` has seen before the digits. -/
def startOf (base : Nat) : Last := if base = 16 then .digit else .start

theorem litInt_iff {base : Nat} (hb : Base base) (w : Bytes) (n : Nat) :
    LitInt base w n ↔ Mant base w ∧ usLoop (base == 16) (startOf base) w = true ∧ digitsIn base 0 w = some n := by
  rcases hb with rfl | rfl
  · have hb : Base 10 := .inl rfl
    rw [← group_iff hb (i := startOf 10) (.inl rfl)]
    unfold LitInt
    simp
  · have hb : Base 16 := .inr rfl
    have : startOf 16 = .digit := rfl
    rw [this, ← group_prefix_iff hb]
    unfold LitInt
    simp

/-- The number begins with no sign, and with no prefix of another base. -/
theorem body_head {base : Nat} {I dF F ex : Bytes} (hI : Mant base I) (hd : dF = [] ∧ F = [] ∨ dF = 46 :: F)
    (hne : digitCount (I ++ F) ≠ 0) (hh : ∀ c r, ex = c :: r → c ∈ [(101 : UInt8), 69, 112, 80]) :
    (∀ c s, I ++ (dF ++ ex) = c :: s → c ≠ 43 ∧ c ≠ 45) ∧ (base = 10 → ∀ c s, I ++ (dF ++ ex) = 48 :: c :: s →
      c ≠ 98 ∧ c ≠ 66 ∧ c ≠ 111 ∧ c ≠ 79 ∧ c ≠ 120 ∧ c ≠ 88) := by
  constructor
  · intro c s h
    cases I with
    | cons d I =>
      injection h with h _
      subst h
      have := hI d List.mem_cons_self
      constructor <;> (rintro rfl; cases hb' : (base == 16) <;> rw [hb'] at this <;> revert this <;> decide)
    | nil =>
      rcases hd with ⟨rfl, rfl⟩ | rfl
      · exact absurd rfl hne
      · injection h with h _
        rw [← h]
        decide
  · rintro rfl c s h
    cases I with
    | nil =>
      rcases hd with ⟨rfl, rfl⟩ | rfl
      · exact absurd rfl hne
      · injection h with h _
        exact absurd h (by decide)
    | cons a I =>
      injection h with _ h
      cases I with
      | cons b I =>
        injection h with h _
        subst h
        have := hI b (List.mem_cons_of_mem _ List.mem_cons_self)
        refine ⟨?_, ?_, ?_, ?_, ?_, ?_⟩ <;> (rintro rfl; revert this; decide)
      | nil =>
        rcases hd with ⟨rfl, rfl⟩ | rfl
        · have := hh c _ h
          simp only [List.mem_cons, List.not_mem_nil, or_false] at this
          rcases this with rfl | rfl | rfl | rfl <;> decide
        · injection h with h _
          rw [← h]
          decide

theorem underscoreOK_parts {base : Nat} {p sg w : Bytes} {neg : Bool} (hs : Sign sg neg) (hp : RawPrefix base p)
    (h1 : ∀ c s, w = c :: s → c ≠ 43 ∧ c ≠ 45)
    (h2 : base = 10 → ∀ c s, w = 48 :: c :: s → c ≠ 98 ∧ c ≠ 66 ∧ c ≠ 111 ∧ c ≠ 79 ∧ c ≠ 120 ∧ c ≠ 88) :
    underscoreOK (sg ++ (p ++ w)) = usLoop (base == 16) (startOf base) w := by
  have first : ∀ c s, p ++ w = c :: s → c ≠ 43 ∧ c ≠ 45 := by
    intro c s h
    rcases hp with ⟨-, rfl⟩ | ⟨-, rfl | rfl⟩
    · exact h1 c s h
    · injection h with h _; rw [← h]; decide
    · injection h with h _; rw [← h]; decide
  have sign : underscoreOK (sg ++ (p ++ w)) = usBody (p ++ w) := by
    rcases hs with ⟨rfl, -⟩ | ⟨rfl, -⟩ | ⟨rfl, -⟩
    · rw [List.nil_append]
      cases h : p ++ w with
      | nil => rfl
      | cons c s =>
        have := first c s h
        rw [underscoreOK, if_neg (by rw [not_or]; exact ⟨this.2, this.1⟩)]
    · rfl
    · rfl
  rw [sign]
  rcases hp with ⟨rfl, rfl⟩ | ⟨rfl, rfl | rfl⟩
  · rw [List.nil_append]
    show usBody w = usLoop false .start w
    unfold usBody
    split
    · rename_i b r
      obtain ⟨a1, a2, a3, a4, a5, a6⟩ := h2 rfl b r rfl
      rw [if_neg (by simp [a1, a2, a3, a4]), if_neg (by simp [a5, a6])]
    · rfl
  · rfl
  · rfl

theorem litExp_letter {base : Nat} {ex : Bytes} {e t : Int} (h : LitExp base ex e t) :
    ∀ c r, ex = c :: r → c ∈ [(101 : UInt8), 69, 112, 80] := by
  intro c r hc
  rcases h with ⟨-, rfl, -⟩ | ⟨d, sg, neg, X, N, rfl, hd, -⟩
  · cases hc
  · injection hc with h1 _
    subst h1
    rcases hd with ⟨-, rfl | rfl⟩ | ⟨-, rfl | rfl⟩ <;> decide

theorem rawExp_letter {base : Nat} {ex : Bytes} {e : Int} (h : RawExp base ex e) :
    ∀ c r, ex = c :: r → c ∈ [(101 : UInt8), 69, 112, 80] := by
  intro c r hc
  rcases h with ⟨-, rfl, -⟩ | ⟨d, sg, neg, X, rfl, hd, -⟩
  · cases hc
  · injection hc with h1 _
    subst h1
    rcases hd with ⟨-, rfl | rfl⟩ | ⟨-, rfl | rfl⟩ <;> decide

theorem digitsIn_two {base : Nat} (hb : Base base) {I F : Bytes} (hF : Mant base F) {a b : Nat}
    (ha : digitsIn base 0 I = some a) (hb' : digitsIn base 0 F = some b) :
    digitsIn base 0 (I ++ F) = some (a * base ^ digitCount F + b) := by
  obtain ⟨m, -, h⟩ := mant_reads hb F hF
  rw [digitsIn_append, ha, Option.bind_some, h]
  rw [h, Nat.zero_mul, Nat.zero_add] at hb'
  injection hb' with hb'
  rw [hb']

theorem raw_iff (s : Bytes) (neg : Bool) (v : ℚ) : Raw s neg v ↔ ∃ u, Lit s neg v u := by
  constructor
  · rintro ⟨base, p, sg, I, dF, F, ex, e, n, hb, rfl, hsg, hp, hI, hF, hd, hne, hx, hn, hu, rfl⟩
    obtain ⟨k1, k2⟩ := body_head hI hd hne (rawExp_letter hx)
    rw [underscoreOK_parts hsg hp k1 k2, ← List.append_assoc] at hu
    obtain ⟨hu, t, ht⟩ := (exp_iff hb _ _ _ _).mp ⟨hx, hu⟩
    obtain ⟨a, -, ha⟩ := mant_reads hb I hI
    obtain ⟨b, -, hbb⟩ := mant_reads hb F hF
    have hparts : usLoop (base == 16) (startOf base) I = true ∧ usLoop (base == 16) .other F = true := by
      rcases hd with ⟨rfl, rfl⟩ | rfl
      · rw [List.append_nil] at hu; exact ⟨hu, rfl⟩
      · rw [usLoop_sep (by decide) (by intro _; decide), Bool.and_eq_true] at hu
        exact hu
    have h2 := digitsIn_two hb hF (ha 0) (hbb 0)
    rw [hn] at h2
    injection h2 with h2
    exact ⟨_, base, p, sg, I, dF, F, ex, e, t, _, _, hb, rfl, hsg, hp, (litInt_iff hb I _).mpr ⟨hI, hparts.1, ha 0⟩,
      (group_iff hb (i := .other) (.inr rfl) F _).mpr ⟨hF, hparts.2, hbb 0⟩, hd, hne, ht, by rw [← h2], rfl⟩
  · rintro ⟨u, base, p, sg, I, dF, F, ex, e, t, a, b, hb, rfl, hsg, hp, hI, hF, hd, hne, hx, rfl, rfl⟩
    obtain ⟨mI, uI, dI⟩ := (litInt_iff hb I a).mp hI
    obtain ⟨mF, uF, dF'⟩ := (group_iff hb (i := .other) (.inr rfl) F b).mp hF
    obtain ⟨k1, k2⟩ := body_head mI hd hne (litExp_letter hx)
    have hu : usLoop (base == 16) (startOf base) (I ++ dF) = true := by
      rcases hd with ⟨rfl, rfl⟩ | rfl
      · rw [List.append_nil]; exact uI
      · rw [usLoop_sep (by decide) (by intro _; decide), uI, uF]; rfl
    obtain ⟨hx', hu'⟩ := (exp_iff hb _ _ _ _).mpr ⟨hu, t, hx⟩
    refine ⟨base, p, sg, I, dF, F, ex, e, _, hb, rfl, hsg, hp, mI, mF, hd, hne, hx', digitsIn_two hb mF dI dF', ?_, rfl⟩
    rw [underscoreOK_parts hsg hp k1 k2, ← List.append_assoc]
    exact hu'

theorem scaled_dec (a b k : Nat) (t : Int) : scaled 10 (a * 10 ^ k + b) t k = (a + b / (10 : Nat) ^ k) * 10 ^ t := by
  unfold scaled
  rw [if_neg (by decide), zpow_sub₀ (by norm_num), zpow_natCast]
  push_cast
  field_simp

theorem scaled_hex (a b k : Nat) (t : Int) : scaled 16 (a * 16 ^ k + b) t k = (a + b / (16 : Nat) ^ k) * 2 ^ t := by
  unfold scaled
  rw [if_pos rfl, zpow_sub₀ (by norm_num)]
  have : (2 : ℚ) ^ (4 * (k : Int)) = 16 ^ k := by
    rw [zpow_mul, zpow_natCast]
    norm_num
  rw [this]
  push_cast
  field_simp

theorem expPart_iff (l u : String) (c d : UInt8) (hl : ascii l = [c]) (hu : ascii u = [d]) (s : Bytes) (t : Int) :
    ExpPart l u s t ↔ ∃ x sg neg X N, s = x :: (sg ++ X) ∧ (x = c ∨ x = d) ∧ Sign sg neg ∧ DigitText 10 X N ∧
      t = (if neg then -(N : Int) else N) := by
  unfold ExpPart
  rw [hl, hu]
  constructor
  · rintro ⟨sg, neg, ds, n, rfl | rfl, h1, h2, h3⟩
    · exact ⟨c, sg, neg, ds, n, rfl, .inl rfl, h1, h2, h3⟩
    · exact ⟨d, sg, neg, ds, n, rfl, .inr rfl, h1, h2, h3⟩
  · rintro ⟨x, sg, neg, ds, n, rfl, rfl | rfl, h1, h2, h3⟩
    · exact ⟨sg, neg, ds, n, .inl rfl, h1, h2, h3⟩
    · exact ⟨sg, neg, ds, n, .inr rfl, h1, h2, h3⟩

theorem litInt_ten {s : Bytes} {a : Nat} (h : LitInt 10 s a) : OptDigits 10 s a := by
  rcases h with h | ⟨h, -⟩
  · exact h
  · cases h

theorem lit_iff (s : Bytes) (neg : Bool) (u : ℚ) : (∃ v, Lit s neg v u) ↔ ∃ sg m, s = sg ++ m ∧ Sign sg neg ∧ Magnitude m u := by
  constructor
  · rintro ⟨v, base, p, sg, I, dF, F, ex, e, t, a, b, hb, rfl, hsg, hp, hI, hF, hd, hne, hx, -, rfl⟩
    refine ⟨sg, _, rfl, hsg, ?_⟩
    rcases hb with rfl | rfl
    · rcases hp with ⟨-, rfl⟩ | ⟨h, -⟩
      · rw [scaled_dec]
        have hm : Mantissa 10 (I ++ dF) (a + b / (10 : Nat) ^ digitCount F) :=
          (mantissa_iff (.inl rfl) _ _).mpr ⟨I, dF, F, a, b, rfl, litInt_ten hI, hF, hd, hne, rfl⟩
        rcases hx with ⟨-, rfl, -, rfl⟩ | ⟨c, sg, neg, X, N, rfl, hc, hs, hX, -, rfl⟩
        · rw [zpow_zero, mul_one, List.append_nil, List.nil_append]
          exact .dec hm
        · rcases hc with ⟨-, hc⟩ | ⟨h, -⟩
          · have := Magnitude.decExp hm ((expPart_iff "e" "E" 101 69 (by decide) (by decide) _ _).mpr ⟨c, sg, neg, X, N, rfl, hc, hs, hX, rfl⟩)
            rw [List.append_assoc] at this
            exact this
          · cases h
      · cases h
    · rcases hp with ⟨h, -⟩ | ⟨-, hp⟩
      · cases h
      · rw [scaled_hex]
        have hx : ExpPart "p" "P" ex t := by
          rcases hx with ⟨h, -⟩ | ⟨c, sg, neg, X, N, rfl, hc, hs, hX, -, rfl⟩
          · cases h
          · rcases hc with ⟨h, -⟩ | ⟨-, hc⟩
            · cases h
            · exact (expPart_iff "p" "P" 112 80 (by decide) (by decide) _ _).mpr ⟨c, sg, neg, X, N, rfl, hc, hs, hX, rfl⟩
        rcases hI with hI | ⟨-, w, rfl, hI⟩
        · have hm : Mantissa 16 (I ++ dF) (a + b / (16 : Nat) ^ digitCount F) :=
            (mantissa_iff (.inr rfl) _ _).mpr ⟨I, dF, F, a, b, rfl, hI, hF, hd, hne, rfl⟩
          have := Magnitude.hex hp hm hx
          rw [List.append_assoc, List.append_assoc] at this
          exact this
        · have hw := digitText_count (.inr rfl) hI
          have hm : Mantissa 16 (w ++ dF) (a + b / (16 : Nat) ^ digitCount F) :=
            (mantissa_iff (.inr rfl) _ _).mpr ⟨w, dF, F, a, b, rfl, .inr hI, hF, hd, by rw [digitCount_append]; omega, rfl⟩
          have h0 : (w ++ dF).head? ≠ some 46 := by
            cases w with
            | nil => exact absurd rfl hw
            | cons c w =>
              rw [List.cons_append, List.head?_cons]
              intro h
              injection h with h
              subst h
              exact absurd (digitText_mant (.inr rfl) hI 46 List.mem_cons_self) (by decide)
          have := Magnitude.hexUnder hp hm h0 hx
          rw [List.append_assoc, List.append_assoc, List.append_assoc] at this
          exact this
  · rintro ⟨sg, m, rfl, hsg, h⟩
    cases h with
    | dec h =>
      obtain ⟨I, dF, F, a, b, rfl, hI, hF, hd, hne, rfl⟩ := (mantissa_iff (.inl rfl) _ _).mp h
      refine ⟨_, 10, [], sg, I, dF, F, [], 0, 0, a, b, .inl rfl, ?_, hsg, .inl ⟨rfl, rfl⟩, .inl hI, hF, hd, hne, .inl ⟨rfl, rfl, rfl, rfl⟩, rfl, ?_⟩
      · rw [List.append_nil, List.nil_append]
      · rw [scaled_dec, zpow_zero, mul_one]
    | decExp h he =>
      obtain ⟨I, dF, F, a, b, rfl, hI, hF, hd, hne, rfl⟩ := (mantissa_iff (.inl rfl) _ _).mp h
      obtain ⟨c, sg', neg', X, N, rfl, hc, hs, hX, rfl⟩ := (expPart_iff "e" "E" 101 69 (by decide) (by decide) _ _).mp he
      refine ⟨_, 10, [], sg, I, dF, F, _, _, _, a, b, .inl rfl, ?_, hsg, .inl ⟨rfl, rfl⟩, .inl hI, hF, hd, hne,
        .inr ⟨c, sg', neg', X, N, rfl, .inl ⟨rfl, hc⟩, hs, hX, rfl, rfl⟩, rfl, ?_⟩
      · rw [List.append_assoc, List.nil_append]
      · rw [scaled_dec]
    | hex hp h he =>
      obtain ⟨I, dF, F, a, b, rfl, hI, hF, hd, hne, rfl⟩ := (mantissa_iff (.inr rfl) _ _).mp h
      obtain ⟨c, sg', neg', X, N, rfl, hc, hs, hX, rfl⟩ := (expPart_iff "p" "P" 112 80 (by decide) (by decide) _ _).mp he
      refine ⟨_, 16, _, sg, I, dF, F, _, _, _, a, b, .inr rfl, ?_, hsg, .inr ⟨rfl, hp⟩, .inl hI, hF, hd, hne,
        .inr ⟨c, sg', neg', X, N, rfl, .inr ⟨rfl, hc⟩, hs, hX, rfl, rfl⟩, rfl, ?_⟩
      · rw [List.append_assoc, List.append_assoc]
      · rw [scaled_hex]
    | hexUnder hp h h0 he =>
      obtain ⟨I, dF, F, a, b, rfl, hI, hF, hd, hne, rfl⟩ := (mantissa_iff (.inr rfl) _ _).mp h
      obtain ⟨c, sg', neg', X, N, rfl, hc, hs, hX, rfl⟩ := (expPart_iff "p" "P" 112 80 (by decide) (by decide) _ _).mp he
      have hI : DigitText 16 I a := by
        rcases hI with ⟨rfl, -⟩ | hI
        · rcases hd with ⟨rfl, rfl⟩ | rfl
          · exact absurd rfl hne
          · exact absurd rfl h0
        · exact hI
      refine ⟨_, 16, _, sg, 95 :: I, dF, F, _, _, _, a, b, .inr rfl, ?_, hsg, .inr ⟨rfl, hp⟩, .inr ⟨rfl, I, rfl, hI⟩, hF, hd, ?_,
        .inr ⟨c, sg', neg', X, N, rfl, .inr ⟨rfl, hc⟩, hs, hX, rfl, rfl⟩, rfl, ?_⟩
      · rw [List.append_assoc, List.append_assoc, List.append_assoc]; rfl
      · rw [List.cons_append, digitCount_cons, if_pos rfl]; exact hne
      · rw [scaled_hex]

end StlDice.IeeeT
