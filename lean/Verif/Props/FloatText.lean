import Verif.Lemmas.FloatText
import Verif.Spec.FloatText

/-!
# C89: float64 as text
-/

namespace StlDice

open Spec

namespace F64

/-! ## Reading -/

theorem span_stop {p : UInt8 → Bool} {w r : Bytes} (hw : ∀ c ∈ w, p c = true) (hr : ∀ c s, r = c :: s → p c = false) :
    (w ++ r).span p = (w, r) := by
  cases r with
  | nil =>
    rw [List.append_nil, List.span_eq_takeWhile_dropWhile]
    induction w with
    | nil => rfl
    | cons a w ih =>
      have h1 := hw a List.mem_cons_self
      have ih := ih (fun c hc => hw c (List.mem_cons_of_mem _ hc))
      injection ih with i1 i2
      rw [List.takeWhile_cons_of_pos h1, List.dropWhile_cons_of_pos h1, i1, i2]
  | cons c s => exact span_append hw (hr c s rfl) s

theorem span_split (p : UInt8 → Bool) (s : Bytes) : s = (s.span p).1 ++ (s.span p).2 ∧ (∀ c ∈ (s.span p).1, p c = true) ∧
    ∀ c r, (s.span p).2 = c :: r → p c = false := by
  rw [List.span_eq_takeWhile_dropWhile]
  refine ⟨List.takeWhile_append_dropWhile.symm, fun c hc => ?_, fun c r h => ?_⟩
  · exact List.all_eq_true.mp (List.all_takeWhile (p := p) (l := s)) c hc
  dsimp only at h
  have := List.head?_dropWhile_not p s
  rw [h] at this
  simpa using this

theorem takeSign_spec (s : Bytes) : ∃ sg, s = sg ++ (takeSign s).2 ∧ Sign sg (takeSign s).1 := by
  unfold takeSign
  split
  · exact ⟨[43], rfl, .inr (.inl ⟨rfl, rfl⟩)⟩
  · exact ⟨[45], rfl, .inr (.inr ⟨rfl, rfl⟩)⟩
  · exact ⟨[], rfl, .inl ⟨rfl, rfl⟩⟩

theorem takeSign_append {sg r : Bytes} {neg : Bool} (h : Sign sg neg) (hr : ∀ c s, r = c :: s → c ≠ 43 ∧ c ≠ 45) :
    takeSign (sg ++ r) = (neg, r) := by
  rcases h with ⟨rfl, rfl⟩ | ⟨rfl, rfl⟩ | ⟨rfl, rfl⟩
  · rw [List.nil_append]
    unfold takeSign
    split
    · exact absurd rfl (hr _ _ rfl).1
    · exact absurd rfl (hr _ _ rfl).2
    · rfl
  · rfl
  · rfl

theorem digit_sign {c : UInt8} (h : isDigit c = true) : c ≠ 43 ∧ c ≠ 45 ∧ c ≠ 46 ∧ c ≠ 101 ∧ c ≠ 69 := by
  refine ⟨?_, ?_, ?_, ?_, ?_⟩ <;> (rintro rfl; revert h; decide)

theorem takeExp_iff (s : Bytes) (e : Int) : takeExp s = some e ↔ Exponent s e := by
  unfold Exponent
  cases s with
  | nil =>
    constructor
    · intro h
      exact .inl ⟨rfl, by injection h with h; exact h.symm⟩
    · rintro (⟨-, rfl⟩ | ⟨c, sg, neg, ds, h, -⟩)
      · rfl
      · cases h
  | cons c s =>
    have un : takeExp (c :: s) = if c = 101 ∨ c = 69 then
      if (takeSign s).2 ≠ [] ∧ (takeSign s).2.all isDigit then
        some (if (takeSign s).1 then -(digitsVal (takeSign s).2 : Int) else (digitsVal (takeSign s).2 : Int))
      else none
      else none := rfl
    rw [un]
    constructor
    · intro h
      split at h
      · rename_i hc
        split at h
        · rename_i hd
          obtain ⟨sg, hs, hsg⟩ := takeSign_spec s
          injection h with h
          exact .inr ⟨c, sg, _, _, by rw [← hs], hc, hsg, hd.1, List.all_eq_true.mp hd.2, h.symm⟩
        · cases h
      · cases h
    · rintro (⟨h, -⟩ | ⟨c', sg, neg, ds, h, hc, hsg, hne, hd, rfl⟩)
      · cases h
      · injection h with h1 h2
        subst h1
        subst h2
        rw [if_pos hc, takeSign_append hsg]
        · rw [if_pos ⟨hne, List.all_eq_true.mpr hd⟩]
        · intro c r hr
          have := digit_sign (hd c (by rw [hr]; exact List.mem_cons_self))
          exact ⟨this.1, this.2.1⟩

theorem exponent_head {s : Bytes} {e : Int} (h : Exponent s e) : ∀ c r, s = c :: r → isDigit c = false ∧ c ≠ 46 := by
  intro c r hc
  rcases h with ⟨rfl, -⟩ | ⟨c', sg, neg, ds, rfl, hc', -⟩
  · cases hc
  · injection hc with h1 h2
    subst h1
    rcases hc' with rfl | rfl <;> decide

theorem takeFrac_spec (s : Bytes) : ∃ fr, s = fr ++ (takeFrac s).2 ∧ Digits (takeFrac s).1 ∧
    (fr = [] ∧ (takeFrac s).1 = [] ∨ fr = ascii "." ++ (takeFrac s).1) := by
  unfold takeFrac
  split
  · rename_i r
    obtain ⟨a, b, -⟩ := span_split isDigit r
    refine ⟨46 :: (r.span isDigit).1, ?_, b, .inr rfl⟩
    rw [List.cons_append, ← a]
  · refine ⟨[], rfl, ?_, .inl ⟨rfl, rfl⟩⟩
    intro c hc
    cases hc

theorem takeFrac_append {fr fp ex : Bytes} {e : Int} (hd : Digits fp) (hf : fr = [] ∧ fp = [] ∨ fr = ascii "." ++ fp)
    (hx : Exponent ex e) : takeFrac (fr ++ ex) = (fp, ex) := by
  have hh := exponent_head hx
  rcases hf with ⟨rfl, rfl⟩ | rfl
  · rw [List.nil_append]
    unfold takeFrac
    split
    · exact absurd rfl (hh _ _ rfl).2
    · rfl
  · show (fp ++ ex).span isDigit = _
    exact span_stop hd (fun c s h => (hh c s h).1)

/-- **C89.** The texts `ParseFloat` reads as decimals are exactly the decimal numbers, with their value. -/
theorem decimal_iff (s : Bytes) (v : ℚ) : decimal s = some v ↔ Decimal s v := by
  constructor
  · intro h
    unfold decimal at h
    dsimp only at h
    obtain ⟨sg, hs, hsg⟩ := takeSign_spec s
    generalize takeSign s = S at *
    obtain ⟨hi, hid, -⟩ := span_split isDigit S.2
    generalize S.2.span isDigit = I at *
    obtain ⟨fr, hf, hfd, hfr⟩ := takeFrac_spec I.2
    generalize takeFrac I.2 = P at *
    split at h
    · cases h
    · rename_i hne
      split at h
      · cases h
      · rename_i e he
        injection h with h
        refine ⟨sg, S.1, I.1, fr, P.1, P.2, e, ?_, hsg, hid, hfd, hne, hfr, (takeExp_iff _ _).mp he, ?_⟩
        · rw [← hf, ← hi, ← hs]
        · rw [← h, pow10_eq]
  · rintro ⟨sg, neg, ip, fr, fp, ex, e, rfl, hsg, hi, hf, hne, hfr, hx, rfl⟩
    have hh := exponent_head hx
    have h1 : ∀ c r, fr ++ ex = c :: r → isDigit c = false := by
      intro c r h
      rcases hfr with ⟨rfl, -⟩ | rfl
      · exact (hh c r h).1
      · injection h with h _
        rw [← h]
        decide
    have h2 : ∀ c r, ip ++ (fr ++ ex) = c :: r → c ≠ 43 ∧ c ≠ 45 := by
      intro c r h
      cases ip with
      | cons d ip =>
        injection h with h _
        subst h
        have := digit_sign (hi d List.mem_cons_self)
        exact ⟨this.1, this.2.1⟩
      | nil =>
        rcases hfr with ⟨rfl, rfl⟩ | rfl
        · exact absurd rfl hne
        · injection h with h _
          rw [← h]
          decide
    unfold decimal
    dsimp only
    rw [takeSign_append hsg h2]
    dsimp only
    rw [span_stop hi h1]
    dsimp only
    rw [takeFrac_append hf hfr hx]
    dsimp only
    rw [if_neg hne, (takeExp_iff _ _).mpr hx]
    dsimp only
    rw [pow10_eq]

/-! ## Writing -/

theorem digitsVal_append (a b : Bytes) : digitsVal (a ++ b) = digitsVal a * 10 ^ b.length + digitsVal b := by
  induction b using List.reverseRecOn with
  | nil => simp [digitsVal]
  | append_singleton b d ih =>
    rw [← List.append_assoc, digitsVal_append_single, ih, digitsVal_append_single, List.length_append, List.length_singleton,
      pow_succ]
    ring

theorem digitsVal_zeros (n : Nat) : digitsVal (List.replicate n 48) = 0 := by
  induction n with
  | zero => rfl
  | succ n ih =>
    rw [List.replicate_succ', digitsVal_append_single, ih]
    rfl

theorem zeros_digits (n : Nat) : Digits (List.replicate n 48) := by
  intro c hc
  rw [List.eq_of_mem_replicate hc]
  decide

/-- **C89.** The digits: at most 17, no leading zero; read back as the number; no decimal with fewer digits is, and none
    with as many is nearer. -/
theorem shortest_spec {q : ℚ} (hq : Binary64 q) (q0 : 0 < q) :
    Digits (shortest q).1 ∧ 1 ≤ (shortest q).1.length ∧ (shortest q).1.length ≤ 17 ∧
    10 ^ ((shortest q).1.length - 1) ≤ digitsVal (shortest q).1 ∧
    rnd (digitsVal (shortest q).1 * 10 ^ ((shortest q).2 - ((shortest q).1.length : Int))) = q ∧
    ∀ (c : Nat) (j : Int), rnd (c * 10 ^ j) = q → (shortest q).1.length ≤ (fmtNat c).length ∧
      ((fmtNat c).length = (shortest q).1.length →
        |digitsVal (shortest q).1 * 10 ^ ((shortest q).2 - ((shortest q).1.length : Int)) - q| ≤ |c * 10 ^ j - q|) := by
  obtain ⟨h1, h2⟩ := ilog10_spec q0
  obtain ⟨hs, n1, n17, hmin⟩ := searchDigits_spec hq h1 16 1 rfl
  obtain ⟨r1, r2, r3, -⟩ := digitsFor_sound h1 h2 n1 hs
  unfold shortest
  dsimp only
  generalize ilog10 q = k at *
  generalize searchDigits q k 16 1 = r at *
  have short : ∀ (c : Nat) (j : Int), rnd (c * 10 ^ j) = q → r.2 ≤ (fmtNat c).length := by
    intro c j hr
    obtain ⟨l1, -, l3⟩ := fmtNat_length c
    obtain ⟨d, hd, -⟩ := digitsFor_complete hq h1 l1 l3 hr
    by_contra hc
    rw [hmin _ l3 (by omega)] at hd
    cases hd
  have near : ∀ (c : Nat) (j : Int), rnd (c * 10 ^ j) = q → (fmtNat c).length = r.2 →
      |(r.1 : ℚ) * 10 ^ (k - (r.2 : Int)) - q| ≤ |c * 10 ^ j - q| := by
    intro c j hr hl
    obtain ⟨l1, -, l3⟩ := fmtNat_length c
    rw [hl] at l1
    obtain ⟨d, hd, hn⟩ := digitsFor_complete hq h1 l1 n1 hr
    rw [hs] at hd
    injection hd with hd
    subst hd
    exact hn
  split
  · rename_i e
    have v1 : ((1 : Nat) : ℚ) * 10 ^ (k + 1 - ((1 : Nat) : Int)) = (r.1 : ℚ) * 10 ^ (k - (r.2 : Int)) := by
      rw [e, Nat.cast_one, one_mul]
      have : ((10 ^ r.2 : Nat) : ℚ) = (10 : ℚ) ^ (r.2 : Int) := by rw [zpow_natCast]; norm_cast
      rw [this, ← zpow_add₀ (by norm_num)]
      congr 1
      omega
    have one : r.2 = 1 := by
      have := short 1 (k + 1 - ((1 : Nat) : Int)) (by rw [v1]; exact r1)
      have l : (fmtNat 1).length = 1 := by decide
      omega
    refine ⟨?_, le_refl _, by norm_num, ?_, ?_, ?_⟩
    · intro c hc
      rw [List.mem_singleton.mp hc]
      decide
    · show 10 ^ 0 ≤ 1
      decide
    · show rnd ((1 : Nat) * 10 ^ (k + 1 - ((1 : Nat) : Int))) = q
      rw [v1]
      exact r1
    · intro c j hr
      refine ⟨by have := short c j hr; rw [one] at this; exact this, fun hl => ?_⟩
      show |((1 : Nat) : ℚ) * 10 ^ (k + 1 - ((1 : Nat) : Int)) - q| ≤ _
      rw [v1]
      exact near c j hr (by rw [one]; exact hl)
  · rename_i hne
    have len := fmtNat_length_eq n1 r2 (by omega)
    dsimp only
    rw [len, fmtNat_val]
    exact ⟨fmtNat_digits _, n1, n17, r2, r1, fun c j hr => ⟨short c j hr, near c j hr⟩⟩

theorem exponent_fmt (e : Int) : Exponent (101 :: fmtExp e) e := by
  refine .inr ⟨101, if e < 0 then [45] else [43], decide (e < 0),
    if e.natAbs < 10 then 48 :: fmtNat e.natAbs else fmtNat e.natAbs, rfl, .inl rfl, ?_, ?_, ?_, ?_⟩
  · by_cases h : e < 0
    · rw [if_pos h, decide_eq_true h]; exact .inr (.inr ⟨rfl, rfl⟩)
    · rw [if_neg h, decide_eq_false h]; exact .inr (.inl ⟨rfl, rfl⟩)
  · split
    · exact List.cons_ne_nil _ _
    · exact fmtNat_ne_nil _
  · split
    · intro c hc
      rcases List.mem_cons.mp hc with rfl | hc
      · decide
      · exact fmtNat_digits _ c hc
    · exact fmtNat_digits _
  · have v : digitsVal (if e.natAbs < 10 then 48 :: fmtNat e.natAbs else fmtNat e.natAbs) = e.natAbs := by
      split
      · show digitsVal ([48] ++ fmtNat e.natAbs) = _
        rw [digitsVal_append, fmtNat_val]
        show 0 * _ + _ = _
        omega
      · exact fmtNat_val _
    rw [v]
    by_cases h : e < 0
    · rw [decide_eq_true h, if_pos rfl]; omega
    · rw [decide_eq_false h, if_neg Bool.false_ne_true]; omega

theorem digits_take {ds : Bytes} (h : Digits ds) (n : Nat) : Digits (ds.take n) := fun c hc => h c (List.mem_of_mem_take hc)
theorem digits_drop {ds : Bytes} (h : Digits ds) (n : Nat) : Digits (ds.drop n) := fun c hc => h c (List.mem_of_mem_drop hc)

/-- The value of the form `d.ddde±dd`. -/
theorem formE_decimal {sg : Bytes} {neg : Bool} {ds : Bytes} {dp : Int} (hs : Sign sg neg) (hd : Digits ds) (hl : 1 ≤ ds.length) :
    Decimal (sg ++ formE ds dp) ((if neg then -1 else 1) * (digitsVal ds * 10 ^ (dp - (ds.length : Int)))) := by
  refine ⟨sg, neg, ds.take 1, if ds.length ≤ 1 then [] else 46 :: ds.drop 1, ds.drop 1, 101 :: fmtExp (dp - 1), dp - 1,
    ?_, hs, digits_take hd 1, digits_drop hd 1, ?_, ?_, exponent_fmt _, ?_⟩
  · unfold formE
    rw [List.append_assoc]
  · rw [List.take_append_drop]
    intro h
    rw [h] at hl
    simp at hl
  · split
    · rename_i h
      exact .inl ⟨rfl, List.drop_eq_nil_iff.mpr h⟩
    · exact .inr rfl
  · rw [List.take_append_drop, List.length_drop]
    congr 3
    omega

/-- The value of the form `ddd.ddd`. -/
theorem formF_decimal {sg : Bytes} {neg : Bool} {ds : Bytes} {dp : Int} (hs : Sign sg neg) (hd : Digits ds) (hl : 1 ≤ ds.length) :
    Decimal (sg ++ formF ds dp) ((if neg then -1 else 1) * (digitsVal ds * 10 ^ (dp - (ds.length : Int)))) := by
  have hne : ds ≠ [] := by
    intro h
    rw [h] at hl
    simp at hl
  unfold formF
  split
  · rename_i h
    refine ⟨sg, neg, [48], 46 :: (List.replicate (-dp).toNat 48 ++ ds), List.replicate (-dp).toNat 48 ++ ds, [], 0, ?_, hs, ?_, ?_, ?_,
      .inr rfl, .inl ⟨rfl, rfl⟩, ?_⟩
    · rw [List.append_nil]; rfl
    · exact zeros_digits 1
    · intro c hc
      rcases List.mem_append.mp hc with h | h
      · exact zeros_digits _ c h
      · exact hd c h
    · exact List.cons_ne_nil _ _
    · rw [digitsVal_append, digitsVal_append, digitsVal_zeros, List.length_append, List.length_replicate]
      have z : digitsVal [48] = 0 := rfl
      rw [z, Nat.zero_mul, Nat.zero_mul, Nat.zero_add, Nat.zero_add]
      congr 3
      push_cast
      omega
  · rename_i h
    split
    · rename_i h'
      refine ⟨sg, neg, ds ++ List.replicate (dp.toNat - ds.length) 48, [], [], [], 0, ?_, hs, ?_, ?_, ?_,
        .inl ⟨rfl, rfl⟩, .inl ⟨rfl, rfl⟩, ?_⟩
      · rw [List.append_nil, List.append_nil]
      · intro c hc
        rcases List.mem_append.mp hc with h | h
        · exact hd c h
        · exact zeros_digits _ c h
      · intro c hc; cases hc
      · rw [List.append_nil]
        exact List.append_ne_nil_of_left_ne_nil hne _
      · rw [List.append_nil, digitsVal_append, digitsVal_zeros, List.length_replicate, Nat.add_zero, List.length_nil, Nat.cast_mul,
          Nat.cast_pow, Nat.cast_ofNat, Int.ofNat_zero, sub_zero, zpow_zero, mul_one, ← zpow_natCast]
        congr 3
        omega
    · rename_i h'
      refine ⟨sg, neg, ds.take dp.toNat, 46 :: ds.drop dp.toNat, ds.drop dp.toNat, [], 0, ?_, hs, digits_take hd _, digits_drop hd _,
        ?_, .inr rfl, .inl ⟨rfl, rfl⟩, ?_⟩
      · rw [List.append_nil]
      · rw [List.take_append_drop]; exact hne
      · rw [List.take_append_drop, List.length_drop]
        congr 3
        omega

theorem fmtPos_decimal {sg : Bytes} {neg : Bool} {q : ℚ} (hs : Sign sg neg) (hq : Binary64 q) (q0 : 0 < q) :
    ∃ v, Decimal (sg ++ fmtPos q) v ∧ rnd v = (if neg then -1 else 1) * q := by
  obtain ⟨hd, hl, -, -, hr, -⟩ := shortest_spec hq q0
  refine ⟨(if neg then -1 else 1) * (digitsVal (shortest q).1 * 10 ^ ((shortest q).2 - ((shortest q).1.length : Int))), ?_, ?_⟩
  · unfold fmtPos
    split
    · exact formE_decimal hs hd hl
    · exact formF_decimal hs hd hl
  · cases neg with
    | false =>
      rw [if_neg Bool.false_ne_true, one_mul, one_mul]
      exact hr
    | true =>
      rw [if_pos rfl, neg_one_mul, neg_one_mul, rnd_neg, hr]

/-- **C89.** What is printed is a decimal number whose nearest float64 is the number printed. -/
theorem fmtFloat_decimal (x : F64) : ∃ v, Decimal (fmtFloat x) v ∧ of v = x := by
  unfold fmtFloat
  split
  · rename_i h
    refine ⟨0, ⟨[], false, [48], [], [], [], 0, rfl, .inl ⟨rfl, rfl⟩, zeros_digits 1, ?_, List.cons_ne_nil _ _,
      .inl ⟨rfl, rfl⟩, .inl ⟨rfl, rfl⟩, ?_⟩, ?_⟩
    · intro c hc; cases hc
    · have : digitsVal ([48] ++ []) = 0 := rfl
      rw [this, Nat.cast_zero, zero_mul, mul_zero]
    · apply F64.ext
      rw [h, of_val, rnd_zero]
  · rename_i h
    split
    · rename_i hn
      obtain ⟨v, hv, hr⟩ := fmtPos_decimal (sg := [45]) (neg := true) (q := -x.val) (.inr (.inr ⟨rfl, rfl⟩))
        (binary64_neg (val_mem x)) (by linarith)
      refine ⟨v, hv, F64.ext ?_⟩
      rw [of_val, hr, if_pos rfl, neg_one_mul, neg_neg]
    · rename_i hn
      obtain ⟨v, hv, hr⟩ := fmtPos_decimal (sg := []) (neg := false) (q := x.val) (.inl ⟨rfl, rfl⟩) (val_mem x)
        (lt_of_le_of_ne (not_lt.mp hn) (Ne.symm h))
      refine ⟨v, hv, F64.ext ?_⟩
      rw [of_val, hr, if_neg Bool.false_ne_true, one_mul]

/-- The characters of a decimal number. -/
def decChar (c : UInt8) : Prop := isDigit c = true ∨ c = 43 ∨ c = 45 ∨ c = 46 ∨ c = 101 ∨ c = 69

theorem sign_chars {s : Bytes} {neg : Bool} (h : Sign s neg) : ∀ c ∈ s, decChar c := by
  rcases h with ⟨rfl, -⟩ | ⟨rfl, -⟩ | ⟨rfl, -⟩ <;> intro c hc
  · cases hc
  · rw [List.mem_singleton.mp hc]; exact .inr (.inl rfl)
  · rw [List.mem_singleton.mp hc]; exact .inr (.inr (.inl rfl))

theorem decimal_chars {s : Bytes} {v : ℚ} (h : Decimal s v) : s ≠ [] ∧ ∀ c ∈ s, decChar c := by
  obtain ⟨sg, neg, ip, fr, fp, ex, e, rfl, hsg, hi, hf, hne, hfr, hx, -⟩ := h
  constructor
  · intro h
    obtain ⟨-, h⟩ := List.append_eq_nil_iff.mp h
    obtain ⟨h1, h⟩ := List.append_eq_nil_iff.mp h
    obtain ⟨h2, -⟩ := List.append_eq_nil_iff.mp h
    rcases hfr with ⟨-, h3⟩ | h3
    · exact hne (by rw [h1, h3]; rfl)
    · rw [h2] at h3; cases h3
  · intro c hc
    rcases List.mem_append.mp hc with h | hc
    · exact sign_chars hsg c h
    rcases List.mem_append.mp hc with h | hc
    · exact .inl (hi c h)
    rcases List.mem_append.mp hc with h | hc
    · rcases hfr with ⟨rfl, -⟩ | rfl
      · cases h
      · rcases List.mem_append.mp h with h | h
        · rw [List.mem_singleton.mp h]; exact .inr (.inr (.inr (.inl rfl)))
        · exact .inl (hf c h)
    · rcases hx with ⟨rfl, -⟩ | ⟨d, sg', neg', ds, rfl, hd, hs', -, hds, -⟩
      · cases hc
      · rcases List.mem_cons.mp hc with h | h
        · subst h
          rcases hd with rfl | rfl
          · exact .inr (.inr (.inr (.inr (.inl rfl))))
          · exact .inr (.inr (.inr (.inr (.inr rfl))))
        rcases List.mem_append.mp h with h | h
        · exact sign_chars hs' c h
        · exact .inl (hds c h)

theorem decChar_space {c : UInt8} (h : decChar c) : isSpace c = false := by
  rcases h with h | rfl | rfl | rfl | rfl | rfl
  · exact digit_not_space h
  all_goals decide

/-- **C89.** What is printed for a float64 is read back as the same number, and is a word without blanks. -/
theorem float_text_f64 (x : F64) : parse (fmtFloat x) = some x ∧ fmtFloat x ≠ [] ∧ ∀ c ∈ fmtFloat x, isSpace c = false := by
  obtain ⟨v, hv, hr⟩ := fmtFloat_decimal x
  refine ⟨?_, (decimal_chars hv).1, fun c hc => decChar_space ((decimal_chars hv).2 c hc)⟩
  unfold parse
  rw [(decimal_iff _ _).mpr hv, Option.map_some, hr]

/-- Go's text for float64 is lawful, so all properties of files proved for lawful text hold for float64 and the text Go
    writes. -/
instance lawful : LawfulFloatText F64 where
  parse_fmt x := (float_text_f64 x).1
  fmt_ne_nil x := (float_text_f64 x).2.1
  fmt_nospace x := (float_text_f64 x).2.2

/-! ## Examples -/

/-- The double nearest to 0.1. -/
example := shortest_spec (q := rnd (1 / 10)) (rnd_mem _) (by decide +kernel)

end F64
end StlDice
