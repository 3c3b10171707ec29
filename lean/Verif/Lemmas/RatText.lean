import Verif.Lemmas.Text

/-! A lawful text form for rationals (`num/den`), used to show that the hypotheses of the
    round-trip theorems can be met and to run concrete witnesses. -/

namespace StlDice

/-- Signed decimal value. -/
def parseSigned : Bytes → Int
  | 45 :: ds => -(digitsVal ds : Int)
  | ds => (digitsVal ds : Int)

instance ratText : FloatText ℚ where
  fmtG q := fmtInt q.num ++ 47 :: fmtNat q.den
  parseFloat bs :=
    match bs.span (fun c => c ≠ 47) with
    | (a, _ :: b) => some ((parseSigned a : ℚ) / (digitsVal b : ℚ))
    | _ => none

theorem parseSigned_fmtInt (i : Int) : parseSigned (fmtInt i) = i := by
  cases i with
  | ofNat n =>
    have hne := fmtNat_ne_nil n
    have hd := fmtNat_digits n
    have hv := fmtNat_val n
    simp only [fmtInt]
    generalize fmtNat n = l at *
    cases l with
    | nil => exact absurd rfl hne
    | cons c l =>
      have hc : c ≠ 45 := by
        rintro rfl; have := hd 45 (by simp); revert this; decide
      unfold parseSigned
      split
      · rename_i heq; simp only [List.cons.injEq] at heq; exact absurd heq.1 hc
      · rw [hv]; rfl
  | negSucc n =>
    simp only [fmtInt, parseSigned, fmtNat_val]
    rfl

theorem fmtInt_chars (i : Int) : ∀ c ∈ fmtInt i, isDigit c = true ∨ c = 45 := by
  cases i with
  | ofNat n => intro c hc; exact Or.inl (fmtNat_digits n c hc)
  | negSucc n =>
    intro c hc
    rcases List.mem_cons.mp hc with rfl | hc
    · exact Or.inr rfl
    · exact Or.inl (fmtNat_digits _ c hc)

instance : LawfulFloatText ℚ where
  parse_fmt q := by
    show (match (fmtInt q.num ++ 47 :: fmtNat q.den).span (fun c => decide (c ≠ 47)) with
      | (a, _ :: b) => some ((parseSigned a : ℚ) / (digitsVal b : ℚ))
      | _ => none) = some q
    rw [span_append]
    · simp only [parseSigned_fmtInt, fmtNat_val, Rat.num_div_den]
    · intro c hc
      rcases fmtInt_chars _ c hc with h | h
      · have : c ≠ 47 := by rintro rfl; revert h; decide
        simpa using this
      · subst h; decide
    · decide
  fmt_ne_nil q := by show fmtInt q.num ++ 47 :: fmtNat q.den ≠ []; simp
  fmt_nospace q := by
    show ∀ c ∈ fmtInt q.num ++ 47 :: fmtNat q.den, isSpace c = false
    intro c hc
    rcases List.mem_append.mp hc with h | h
    · rcases fmtInt_chars _ c h with h | h
      · exact digit_not_space h
      · subst h; decide
    · rcases List.mem_cons.mp h with h | h
      · subst h; decide
      · exact digit_not_space (fmtNat_digits _ c h)

end StlDice
