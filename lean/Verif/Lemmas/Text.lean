import Mathlib.Data.List.Induction
import Verif.Spec.Format
import Mathlib.Tactic.Ring

/-! Lemmas about header text. -/

namespace StlDice

theorem readLine_append {l : Bytes} (h : ∀ c ∈ l, c ≠ nl) (s : Bytes) :
    readLine (l ++ nl :: s) = some (l ++ [nl], s) := by
  induction l with
  | nil => simp [readLine]
  | cons c l ih =>
    have hc : c ≠ nl := h c (by simp)
    simp [readLine, hc, ih (fun c hc => h c (by simp [hc]))]

theorem readLine_some {s l r : Bytes} (h : readLine s = some (l, r)) :
    ∃ w, l = w ++ [nl] ∧ s = l ++ r ∧ ∀ c ∈ w, c ≠ nl := by
  induction s generalizing l r with
  | nil => simp [readLine] at h
  | cons c s ih =>
    unfold readLine at h
    split at h
    · rename_i hc
      simp only [Option.some.injEq, Prod.mk.injEq] at h
      obtain ⟨rfl, rfl⟩ := h
      exact ⟨[], by simp [hc], by simp, by simp⟩
    · rename_i hc
      split at h
      · simp at h
      · rename_i l' r' hr
        simp only [Option.some.injEq, Prod.mk.injEq] at h
        obtain ⟨rfl, rfl⟩ := h
        obtain ⟨w, hl, hs, hw⟩ := ih hr
        refine ⟨c :: w, by simp [hl], by simp [hs], ?_⟩
        intro x hx
        rcases List.mem_cons.mp hx with rfl | hx
        · exact hc
        · exact hw x hx

theorem stripPrefix_append (p s : Bytes) : stripPrefix p (p ++ s) = some s := by
  induction p with
  | nil => rfl
  | cons c p ih => simp [stripPrefix, ih]

theorem stripPrefix_some {p s r : Bytes} (h : stripPrefix p s = some r) : s = p ++ r := by
  induction p generalizing s with
  | nil => simp [stripPrefix] at h; simp [h]
  | cons c p ih =>
    cases s with
    | nil => simp [stripPrefix] at h
    | cons d s =>
      simp only [stripPrefix] at h
      split at h
      · rename_i hc; simp [ih h, hc]
      · simp at h

theorem span_append {p : UInt8 → Bool} {w : Bytes} (hw : ∀ c ∈ w, p c = true) {c : UInt8}
    (hc : p c = false) (s : Bytes) : (w ++ c :: s).span p = (w, c :: s) := by
  rw [List.span_eq_takeWhile_dropWhile]
  congr 1
  · rw [List.takeWhile_append_of_pos hw]; simp [hc]
  · rw [List.dropWhile_append_of_pos hw]; simp [hc]

theorem capture_append {p : UInt8 → Bool} {w : Bytes} (hne : w ≠ []) (hw : ∀ c ∈ w, p c = true)
    {c : UInt8} (hc : p c = false) (s : Bytes) :
    capture p (w ++ c :: s) = some (w, c :: s) := by
  unfold capture
  rw [span_append hw hc]
  cases w with
  | nil => exact absurd rfl hne
  | cons a w => rfl

theorem capture_some {p : UInt8 → Bool} {s w r : Bytes} (h : capture p s = some (w, r)) :
    s = w ++ r ∧ w ≠ [] ∧ (∀ c ∈ w, p c = true) ∧ ∀ c r', r = c :: r' → p c = false := by
  unfold capture at h
  rw [List.span_eq_takeWhile_dropWhile] at h
  have hall : ∀ c ∈ s.takeWhile p, p c = true := fun c hc => by
    have := List.all_takeWhile (p := p) (l := s)
    rw [List.all_eq_true] at this
    exact this c hc
  split at h
  · simp at h
  · rename_i a as r1 heq
    simp only [Prod.mk.injEq] at heq
    simp only [Option.some.injEq, Prod.mk.injEq] at h
    obtain ⟨rfl, rfl⟩ := h
    rw [← heq.1, ← heq.2]
    refine ⟨(List.takeWhile_append_dropWhile).symm, by rw [heq.1]; simp, hall, ?_⟩
    intro c r' hr
    have := List.head?_dropWhile_not p s
    rw [hr] at this
    simpa using this

theorem digit_not_space {c : UInt8} (h : isDigit c = true) : isSpace c = false := by
  unfold isDigit at h; unfold isSpace
  simp only [Bool.and_eq_true, decide_eq_true_eq] at h
  simp only [Bool.or_eq_false_iff, decide_eq_false_iff_not]
  refine ⟨⟨⟨⟨?_, ?_⟩, ?_⟩, ?_⟩, ?_⟩ <;> (rintro rfl; revert h; decide)

theorem isDigit_space : isDigit 32 = false := by decide
theorem isSpace_nl : isSpace nl = true := by decide

theorem isDigit_ofNat {d : Nat} (h : d < 10) : isDigit (UInt8.ofNat (48 + d)) = true := by
  unfold isDigit
  have : (UInt8.ofNat (48 + d)).toNat = 48 + d := by
    simp [UInt8.toNat_ofNat']; omega
  rw [this]; simp; omega

theorem toNat_ofNat_digit {d : Nat} (h : d < 10) : (UInt8.ofNat (48 + d)).toNat = 48 + d := by
  simp [UInt8.toNat_ofNat']; omega

theorem natDigitsRev_digits (fuel n : Nat) : ∀ c ∈ natDigitsRev fuel n, isDigit c = true := by
  induction fuel generalizing n with
  | zero => simp [natDigitsRev]
  | succ fuel ih =>
    unfold natDigitsRev
    split
    · rename_i h; simpa using isDigit_ofNat h
    · intro c hc
      rcases List.mem_cons.mp hc with rfl | hc
      · exact isDigit_ofNat (Nat.mod_lt _ (by decide))
      · exact ih _ c hc

theorem digitsVal_append_single (ds : Bytes) (d : UInt8) :
    digitsVal (ds ++ [d]) = digitsVal ds * 10 + (d.toNat - 48) := by
  unfold digitsVal; rw [List.foldl_append]; rfl

theorem natDigitsRev_val (fuel n : Nat) (h : n < fuel) :
    digitsVal (natDigitsRev fuel n).reverse = n := by
  induction fuel generalizing n with
  | zero => omega
  | succ fuel ih =>
    unfold natDigitsRev
    split
    · rename_i hn
      simp [digitsVal]; omega
    · rename_i hn
      rw [List.reverse_cons, digitsVal_append_single, ih _ (by omega),
        toNat_ofNat_digit (Nat.mod_lt _ (by decide))]
      omega

theorem fmtNat_val (n : Nat) : digitsVal (fmtNat n) = n := natDigitsRev_val _ _ (by omega)

theorem fmtNat_digits (n : Nat) : ∀ c ∈ fmtNat n, isDigit c = true := by
  intro c hc; exact natDigitsRev_digits _ _ c (by simpa [fmtNat] using hc)

theorem fmtNat_ne_nil (n : Nat) : fmtNat n ≠ [] := by
  unfold fmtNat natDigitsRev; split <;> simp

theorem isDigit_iff_all : ∀ n : Nat, n < 256 → ∀ v < 10,
    ((isDigit (UInt8.ofNat n) = true ∧ (UInt8.ofNat n).toNat - 48 = v) ↔ (ascii "0123456789")[v]? = some (UInt8.ofNat n)) := by
  decide +kernel

theorem isDigit_iff (c : UInt8) (v : Nat) :
    (isDigit c = true ∧ c.toNat - 48 = v) ↔ (ascii "0123456789")[v]? = some c := by
  by_cases hv : v < 10
  · have := isDigit_iff_all c.toNat (UInt8.toNat_lt c) v hv
    rwa [UInt8.ofNat_toNat] at this
  · constructor
    · rintro ⟨h, h2⟩
      unfold isDigit at h
      rw [Bool.and_eq_true, decide_eq_true_eq, decide_eq_true_eq] at h
      omega
    · intro h
      rw [List.getElem?_eq_none (by rw [show (ascii "0123456789").length = 10 from rfl]; omega)] at h
      exact absurd h (by nofun)

theorem isSpace_iff (c : UInt8) : isSpace c = true ↔ Spec.IsBlank c := by
  unfold isSpace Spec.IsBlank
  simp only [Bool.or_eq_true, decide_eq_true_eq, or_assoc]

theorem isSpace_false_iff (c : UInt8) : isSpace c = false ↔ ¬ Spec.IsBlank c := by
  rw [← isSpace_iff, Bool.not_eq_true]

/-- The model's digits and values are those of the specification. -/
theorem decText_iff (ds : Bytes) (n : Nat) :
    Spec.DecText ds n ↔ ds ≠ [] ∧ (∀ c ∈ ds, isDigit c = true) ∧ digitsVal ds = n := by
  constructor
  · intro h
    induction h with
    | one h =>
      have := (isDigit_iff _ _).mpr h
      refine ⟨by simp, fun c hc => ?_, ?_⟩
      · rw [List.mem_singleton.mp hc]; exact this.1
      · rw [← this.2]; simp [digitsVal]
    | more _ h ih =>
      have := (isDigit_iff _ _).mpr h
      refine ⟨by simp, fun c hc => ?_, ?_⟩
      · rcases List.mem_append.mp hc with hc | hc
        · exact ih.2.1 c hc
        · rw [List.mem_singleton.mp hc]; exact this.1
      · rw [← this.2, ← ih.2.2]
        unfold digitsVal
        rw [List.foldl_append, List.foldl_cons, List.foldl_nil, Nat.mul_comm]
  · rintro ⟨h0, hd, rfl⟩
    induction ds using List.reverseRecOn with
    | nil => exact absurd rfl h0
    | append_singleton s c ih =>
      have hc := (isDigit_iff c _).mp ⟨hd c (by simp), rfl⟩
      have e : digitsVal (s ++ [c]) = 10 * digitsVal s + (c.toNat - 48) := by
        unfold digitsVal
        rw [List.foldl_append, List.foldl_cons, List.foldl_nil, Nat.mul_comm]
      rw [e]
      cases s with
      | nil =>
        have : Spec.DecText [c] (c.toNat - 48) := .one hc
        simpa [digitsVal] using this
      | cons a s => exact .more (ih (by simp) fun x hx => hd x (List.mem_append_left _ hx)) hc

theorem isNumber_iff (ds : Bytes) (n : Int) : Spec.IsNumber ds n ↔
    ds ≠ [] ∧ (∀ c ∈ ds, isDigit c = true) ∧ (digitsVal ds : Int) = n ∧ digitsVal ds ≤ maxInt := by
  have e : maxInt = 9223372036854775807 := rfl
  have e2 : (2 : Nat) ^ 63 = 9223372036854775808 := by decide
  constructor
  · rintro ⟨m, h, rfl, hm⟩
    obtain ⟨h1, h2, rfl⟩ := (decText_iff ds m).mp h
    exact ⟨h1, h2, rfl, by omega⟩
  · rintro ⟨h1, h2, rfl, hm⟩
    exact ⟨_, (decText_iff ds _).mpr ⟨h1, h2, rfl⟩, rfl, by omega⟩

theorem fmtInt_isNumber {i : Int} (h : 0 ≤ i) (hm : i ≤ maxInt) : Spec.IsNumber (fmtInt i) i := by
  obtain ⟨n, rfl⟩ := Int.eq_ofNat_of_zero_le h
  have : fmtInt (n : Int) = fmtNat n := rfl
  rw [this, isNumber_iff]
  refine ⟨fmtNat_ne_nil n, fmtNat_digits n, by rw [fmtNat_val], ?_⟩
  rw [fmtNat_val]; exact_mod_cast hm

theorem fmtInt_injective : Function.Injective fmtInt := by
  intro a b hab
  have nodash : ∀ n, ∀ r, fmtNat n ≠ 45 :: r := by
    intro n r hn
    have := fmtNat_digits n 45 (by rw [hn]; simp)
    revert this; decide
  cases a with
  | ofNat a =>
    cases b with
    | ofNat b =>
      simp only [fmtInt] at hab
      have := congrArg digitsVal hab
      rw [fmtNat_val, fmtNat_val] at this
      rw [this]
    | negSucc b => exact absurd hab (nodash a _)
  | negSucc a =>
    cases b with
    | ofNat b => exact absurd hab.symm (nodash b _)
    | negSucc b =>
      simp only [fmtInt, List.cons.injEq, true_and] at hab
      have := congrArg digitsVal hab
      rw [fmtNat_val, fmtNat_val] at this
      have : a = b := by omega
      rw [this]

end StlDice
