import Verif.Lemmas.IeeeText

/-! # The parts of a float64 text -/

namespace StlDice.IeeeT
open Spec F64 Flag Ieee

theorem powB_eq (b : Nat) (e : Int) : powB b e = (b : ℚ) ^ e := by
  cases e with
  | ofNat n => simp [powB]
  | negSucc n =>
    rw [powB, Rat.mkRat_eq_div]
    simp [zpow_negSucc]

/-- The exponent part, with the value the code computes. -/
def RawExp (base : Nat) (s : Bytes) (e : Int) : Prop :=
  base = 10 ∧ s = [] ∧ e = 0 ∨
  ∃ c sg neg X, s = c :: (sg ++ X) ∧ (base = 10 ∧ (c = 101 ∨ c = 69) ∨ base = 16 ∧ (c = 112 ∨ c = 80)) ∧ Sign sg neg ∧
    X ≠ [] ∧ X.head? ≠ some 95 ∧ Mant 10 X ∧ e = if neg then -(capped 0 X : Int) else capped 0 X

/-- The prefix of the base. -/
def RawPrefix (base : Nat) (p : Bytes) : Prop := base = 10 ∧ p = [] ∨ base = 16 ∧ (p = ascii "0x" ∨ p = ascii "0X")

/-- What the code computes from mantissa, exponent and number of digits after the point. -/
def scaled (base n : Nat) (e : Int) (k : Nat) : ℚ := if base = 16 then n * 2 ^ (e - 4 * k) else n * 10 ^ (e - k)

/-- The parts of a number. -/
def Raw (s : Bytes) (neg : Bool) (v : ℚ) : Prop :=
  ∃ base p sg I dF F ex e n, Base base ∧ s = sg ++ (p ++ (I ++ (dF ++ ex))) ∧ Sign sg neg ∧ RawPrefix base p ∧ Mant base I ∧
    Mant base F ∧ (dF = [] ∧ F = [] ∨ dF = 46 :: F) ∧ digitCount (I ++ F) ≠ 0 ∧ RawExp base ex e ∧
    digitsIn base 0 (I ++ F) = some n ∧ underscoreOK s = true ∧ v = scaled base n e (digitCount F)

theorem rawExp_head {base : Nat} {s : Bytes} {e : Int} (h : RawExp base s e) :
    ∀ c r, s = c :: r → isMant (base == 16) c = false ∧ c ≠ 46 ∧ c ≠ 120 ∧ c ≠ 88 := by
  intro c r hc
  rcases h with ⟨-, rfl, -⟩ | ⟨d, sg, neg, X, rfl, hd, -⟩
  · cases hc
  · injection hc with h1 h2
    subst h1
    rcases hd with ⟨rfl, rfl | rfl⟩ | ⟨rfl, rfl | rfl⟩ <;> decide

theorem head_digit {X : Bytes} (h0 : X ≠ []) (h95 : X.head? ≠ some 95) (hm : Mant 10 X) : ∃ d t, X = d :: t ∧ isDigit d = true := by
  cases X with
  | nil => exact absurd rfl h0
  | cons d t =>
    refine ⟨d, t, rfl, (chars d).2.2.1.mpr ⟨?_, hm d List.mem_cons_self⟩⟩
    rintro rfl
    exact h95 rfl

theorem span_mant (hex : Bool) (s : Bytes) : s = (s.span (isMant hex)).1 ++ (s.span (isMant hex)).2 ∧
    (∀ c ∈ (s.span (isMant hex)).1, isMant hex c = true) ∧ ∀ c r, (s.span (isMant hex)).2 = c :: r → isMant hex c = false :=
  span_split _ s

theorem letter_iff {base : Nat} (hb : Base base) (c : UInt8) : (c ||| 32 = (if (base == 16) = true then 112 else 101)) ↔
    (base = 10 ∧ (c = 101 ∨ c = 69) ∨ base = 16 ∧ (c = 112 ∨ c = 80)) := by
  rcases hb with rfl | rfl
  · rw [if_neg (by decide), (chars c).2.2.2.1]; simp
  · rw [if_pos (by decide), (chars c).2.2.2.2.1]; simp

theorem readExp_iff {base : Nat} (hb : Base base) (s : Bytes) (e : Int) :
    readExp (base == 16) s = some (e, []) ↔ RawExp base s e := by
  cases s with
  | nil =>
    have un : readExp (base == 16) [] = if (base == 16) = true then none else some (0, []) := rfl
    rw [un]
    rcases hb with rfl | rfl
    · rw [if_neg (by decide)]
      constructor
      · intro h; injection h with h; injection h with h; exact .inl ⟨rfl, rfl, h.symm⟩
      · rintro (⟨-, -, rfl⟩ | ⟨c, sg, neg, X, h, -⟩)
        · rfl
        · cases h
    · rw [if_pos (by decide)]
      constructor
      · intro h; cases h
      · rintro (⟨h, -⟩ | ⟨c, sg, neg, X, h, -⟩)
        · cases h
        · cases h
  | cons c r =>
    rw [readExp]
    constructor
    · intro h
      by_cases hc : c ||| 32 = (if (base == 16) = true then 112 else 101)
      · rw [if_pos hc] at h
        have hc := (letter_iff hb c).mp hc
        obtain ⟨sg, hs, hsg⟩ := takeSign_spec r
        generalize takeSign r = S at *
        obtain ⟨neg, X⟩ := S
        dsimp only at *
        split at h
        · cases h
        · rename_i d t
          split at h
          · rename_i hd
            obtain ⟨g1, g2, g3⟩ := span_mant false (d :: t)
            injection h with h
            injection h with h1 h2
            rw [h2, List.append_nil] at g1
            rw [← g1] at g2 h1
            refine .inr ⟨c, sg, neg, d :: t, by rw [← hs], hc, hsg, List.cons_ne_nil _ _, ?_, g2, h1.symm⟩
            intro e
            injection e with e
            subst e
            exact absurd hd (by decide)
          · cases h
      · rw [if_neg hc] at h
        split at h
        · cases h
        · injection h with h
          injection h with h1 h2
          cases h2
    · rintro (⟨-, h, -⟩ | ⟨c', sg, neg, X, h, hc, hsg, h0, h95, hm, rfl⟩)
      · cases h
      · injection h with h1 h2
        subst h1 h2
        obtain ⟨d, t, rfl, hd⟩ := head_digit h0 h95 hm
        rw [if_pos ((letter_iff hb c).mpr hc), takeSign_append hsg]
        · dsimp only
          have sp : (d :: t).span (isMant false) = (d :: t, []) := by
            have := span_stop (p := isMant false) (w := d :: t) (r := []) hm (by rintro c s h; cases h)
            rwa [List.append_nil] at this
          rw [if_pos hd, sp]
        · intro x y e
          injection e with e1 e2
          subst e1
          have := digit_sign hd
          exact ⟨this.1, this.2.1⟩

theorem readMant_spec (hex : Bool) (s : Bytes) : ∃ dF, s = (readMant hex s).1 ++ (dF ++ (readMant hex s).2.2) ∧
    (∀ c ∈ (readMant hex s).1, isMant hex c = true) ∧ (∀ c ∈ (readMant hex s).2.1, isMant hex c = true) ∧
    (dF = [] ∧ (readMant hex s).2.1 = [] ∨ dF = 46 :: (readMant hex s).2.1) := by
  obtain ⟨g1, g2, -⟩ := span_mant hex s
  unfold readMant
  split
  · rename_i r hr
    obtain ⟨k1, k2, -⟩ := span_mant hex r
    refine ⟨46 :: (r.span (isMant hex)).1, ?_, g2, k2, .inr rfl⟩
    dsimp only
    rw [List.cons_append, ← k1, ← hr, ← g1]
  · refine ⟨[], ?_, g2, fun c hc => (by cases hc), .inl ⟨rfl, rfl⟩⟩
    exact g1

theorem readMant_append {base : Nat} {I F dF ex : Bytes} {e : Int} (hI : Mant base I) (hF : Mant base F)
    (hd : dF = [] ∧ F = [] ∨ dF = 46 :: F) (hx : RawExp base ex e) : readMant (base == 16) (I ++ (dF ++ ex)) = (I, F, ex) := by
  have hh := rawExp_head hx
  have dot : isMant (base == 16) 46 = false := by cases (base == 16) <;> decide
  rcases hd with ⟨rfl, rfl⟩ | rfl
  · have sp : (I ++ ([] ++ ex)).span (isMant (base == 16)) = (I, ex) := span_stop hI (fun c s h => (hh c s h).1)
    unfold readMant
    rw [sp]
    dsimp only
    split
    · rename_i r
      exact absurd rfl (hh 46 r rfl).2.1
    · rfl
  · have sp : (I ++ ((46 :: F) ++ ex)).span (isMant (base == 16)) = (I, (46 :: F) ++ ex) := by
      refine span_stop hI ?_
      intro c s h
      injection h with h1 h2
      rw [← h1]
      exact dot
    unfold readMant
    rw [sp]
    show (I, ((F ++ ex).span (isMant (base == 16))).1, ((F ++ ex).span (isMant (base == 16))).2) = _
    rw [span_stop hF (fun c s h => (hh c s h).1)]

theorem takeHex_false {r : Bytes} (h : ∀ x c t, r = 48 :: x :: c :: t → x ≠ 120 ∧ x ≠ 88) : takeHex r = (false, r) := by
  unfold takeHex
  split
  · rename_i x c t
    have := h x c t rfl
    rw [if_neg (by rw [(chars x).2.2.2.2.2.1]; push Not; exact this)]
  · rfl

theorem takeHex_spec (r : Bytes) : ∃ p base, Base base ∧ (takeHex r).1 = (base == 16) ∧ RawPrefix base p ∧ r = p ++ (takeHex r).2 := by
  unfold takeHex
  split
  · rename_i x c t
    split
    · rename_i hx
      refine ⟨[48, x], 16, .inr rfl, rfl, .inr ⟨rfl, ?_⟩, rfl⟩
      rcases (chars x).2.2.2.2.2.1.mp hx with rfl | rfl
      · exact .inl rfl
      · exact .inr rfl
    · exact ⟨[], 10, .inl rfl, rfl, .inl ⟨rfl, rfl⟩, rfl⟩
  · exact ⟨[], 10, .inl rfl, rfl, .inl ⟨rfl, rfl⟩, rfl⟩

theorem takeHex_true {p w : Bytes} (hp : p = ascii "0x" ∨ p = ascii "0X") (hw : w ≠ []) : takeHex (p ++ w) = (true, w) := by
  cases w with
  | nil => exact absurd rfl hw
  | cons c t =>
    rcases hp with rfl | rfl
    · show (if (120 : UInt8) ||| 32 = 120 then (true, c :: t) else (false, 48 :: 120 :: c :: t)) = _
      rw [if_pos (by decide)]
    · show (if (88 : UInt8) ||| 32 = 120 then (true, c :: t) else (false, 48 :: 88 :: c :: t)) = _
      rw [if_pos (by decide)]

theorem plain_nil (s : Bytes) : plain s = [] ↔ digitCount s = 0 := by
  unfold plain digitCount
  rw [List.length_eq_zero_iff]

theorem readFloat_iff (s : Bytes) (neg : Bool) (v : ℚ) : readFloat s = some (neg, v, []) ↔ Raw s neg v := by
  constructor
  · intro h
    unfold readFloat at h
    dsimp only at h
    obtain ⟨sg, hs, hsg⟩ := takeSign_spec s
    generalize takeSign s = S at *
    obtain ⟨neg', S⟩ := S
    dsimp only at *
    obtain ⟨p, base, hb, hh, hp, hS⟩ := takeHex_spec S
    generalize takeHex S = H at *
    obtain ⟨hex, H⟩ := H
    dsimp only at *
    subst hh
    obtain ⟨dF, hM, hI, hF, hd⟩ := readMant_spec (base == 16) H
    generalize readMant (base == 16) H = M at *
    obtain ⟨I, F, ex⟩ := M
    dsimp only at *
    rw [hb.eq] at h
    split at h
    · cases h
    · rename_i hpl
      split at h
      · rename_i e r n he hn
        split at h
        · cases h
        · rename_i hu
          injection h with h
          injection h with h1 h2
          injection h2 with h2 h3
          subst h1 h3
          rw [List.length_nil, Nat.sub_zero, List.take_length] at hu
          have he := (readExp_iff hb ex e).mp he
          refine ⟨base, p, sg, I, dF, F, ex, e, n, hb, ?_, hsg, hp, hI, hF, hd, ?_, he, hn, ?_, ?_⟩
          · rw [← hM, ← hS, ← hs]
          · exact fun h0 => hpl ((plain_nil _).mpr h0)
          · by_cases hm : (95 : UInt8) ∈ s
            · cases hk : underscoreOK s with
              | true => rfl
              | false => exact absurd ⟨hm, hk⟩ hu
            · exact underscoreOK_plain hm
          · rw [← h2]
            unfold scaled
            rcases hb with rfl | rfl
            · rw [if_neg (by decide), if_neg (by decide), powB_eq]; rfl
            · rw [if_pos (by decide), if_pos rfl, powB_eq]; rfl
      · cases h
  · rintro ⟨base, p, sg, I, dF, F, ex, e, n, hb, rfl, hsg, hp, hI, hF, hd, hne, hx, hn, hu, rfl⟩
    have hne' : I ++ (dF ++ ex) ≠ [] := by
      intro h
      obtain ⟨h1, h2⟩ := List.append_eq_nil_iff.mp h
      obtain ⟨h3, h4⟩ := List.append_eq_nil_iff.mp h2
      rcases hd with ⟨-, h5⟩ | h5
      · exact hne (by rw [h1, h5]; rfl)
      · rw [h3] at h5; cases h5
    have hh := rawExp_head hx
    have first : ∀ c s, I ++ (dF ++ ex) = c :: s → c ≠ 43 ∧ c ≠ 45 := by
      intro c s h
      cases I with
      | cons d I =>
        injection h with h _
        subst h
        have := hI d List.mem_cons_self
        constructor <;> (rintro rfl; cases hb' : (base == 16) <;> rw [hb'] at this <;> revert this <;> decide)
      | nil =>
        rcases hd with ⟨rfl, rfl⟩ | rfl
        · exact absurd rfl hne
        · injection h with h _
          rw [← h]
          decide
    have hex : takeHex (p ++ (I ++ (dF ++ ex))) = ((base == 16), I ++ (dF ++ ex)) := by
      rcases hp with ⟨rfl, rfl⟩ | ⟨rfl, hp⟩
      · refine takeHex_false ?_
        intro x c t h
        rw [List.nil_append] at h
        cases I with
        | nil =>
          rcases hd with ⟨rfl, rfl⟩ | rfl
          · exact absurd rfl hne
          · injection h with h _
            exact absurd h (by decide)
        | cons a I =>
          injection h with _ h
          cases I with
          | cons b I =>
            injection h with h _
            subst h
            have := hI b (List.mem_cons_of_mem _ List.mem_cons_self)
            constructor <;> (rintro rfl; revert this; decide)
          | nil =>
            rcases hd with ⟨rfl, rfl⟩ | rfl
            · exact (hh x _ h).2.2
            · injection h with h _
              rw [← h]
              decide
      · exact takeHex_true hp hne'
    have sign : takeSign (sg ++ (p ++ (I ++ (dF ++ ex)))) = (neg, p ++ (I ++ (dF ++ ex))) := by
      refine takeSign_append hsg ?_
      rcases hp with ⟨-, rfl⟩ | ⟨-, rfl | rfl⟩
      · exact first
      · intro c s h
        injection h with h _
        rw [← h]
        decide
      · intro c s h
        injection h with h _
        rw [← h]
        decide
    unfold readFloat
    dsimp only
    rw [sign]
    dsimp only
    rw [hex]
    dsimp only
    rw [readMant_append hI hF hd hx]
    dsimp only
    rw [hb.eq, if_neg (by rw [plain_nil]; exact hne), (readExp_iff hb ex e).mpr hx, hn]
    dsimp only
    rw [List.length_nil, Nat.sub_zero, List.take_length, hu, if_neg (by rintro ⟨-, h⟩; cases h)]
    congr 3
    unfold scaled
    rcases hb with rfl | rfl
    · rw [if_neg (by decide), if_neg (by decide), powB_eq]; rfl
    · rw [if_pos (by decide), if_pos rfl, powB_eq]; rfl

end StlDice.IeeeT
