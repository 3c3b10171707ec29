import Verif.Model.Dice
import Verif.Lemmas.Text

/-! # Generated file names -/

namespace StlDice

/-- The byte `-`. -/
theorem ascii_dash : ascii "-" = [45] := by decide

theorem dash_not_digit : isDigit 45 = false := by decide

theorem sep_left (c c' X X' : Bytes) (hc : ∀ d ∈ c, isDigit d = true)
    (hc' : ∀ d ∈ c', isDigit d = true) (h : c ++ 45 :: X = c' ++ 45 :: X') : c = c' ∧ X = X' := by
  induction c generalizing c' with
  | nil =>
    cases c' with
    | nil => injection h with _ h; exact ⟨rfl, h⟩
    | cons d c' =>
      injection h with h1 _
      have := hc' d (by simp)
      rw [← h1, dash_not_digit] at this
      cases this
  | cons e c ih =>
    cases c' with
    | nil =>
      injection h with h1 _
      have := hc e (by simp)
      rw [h1, dash_not_digit] at this
      cases this
    | cons d c' =>
      injection h with h1 h2
      obtain ⟨h3, h4⟩ := ih c' (fun d hd => hc d (by simp [hd])) (fun d hd => hc' d (by simp [hd])) h2
      exact ⟨by rw [h1, h3], h4⟩

/-- A field of digits at the end, after a dash, is determined by the whole text. -/
theorem sep_right (c c' X X' : Bytes) (hc : ∀ d ∈ c, isDigit d = true)
    (hc' : ∀ d ∈ c', isDigit d = true) (h : X ++ [45] ++ c = X' ++ [45] ++ c') : c = c' ∧ X = X' := by
  have h' := congrArg List.reverse h
  simp only [List.reverse_append, List.reverse_cons, List.reverse_nil, List.nil_append,
    List.append_assoc, List.singleton_append] at h'
  obtain ⟨h1, h2⟩ := sep_left c.reverse c'.reverse X.reverse X'.reverse (by simpa using hc)
    (by simpa using hc') h'
  exact ⟨List.reverse_injective h1, List.reverse_injective h2⟩

theorem fmtInt_nonneg {i : Int} (h : 0 ≤ i) : fmtInt i = fmtNat i.toNat := by
  cases i with
  | ofNat n => rfl
  | negSucc n => omega

theorem padInt_digits (w : Nat) {i : Int} (h : 0 ≤ i) : ∀ d ∈ padInt w i, isDigit d = true := by
  intro d hd
  unfold padInt at hd
  rw [List.mem_append] at hd
  rcases hd with hd | hd
  · rw [List.eq_of_mem_replicate hd]; decide
  · rw [fmtInt_nonneg h] at hd
    exact fmtNat_digits _ d hd

theorem digitsVal_zeros (n : Nat) (ds : Bytes) :
    digitsVal (List.replicate n 48 ++ ds) = digitsVal ds := by
  unfold digitsVal
  rw [List.foldl_append]
  congr 1
  induction n with
  | zero => rfl
  | succ n ih => rw [List.replicate_succ, List.foldl_cons]; exact ih

theorem padInt_injective (w : Nat) {i j : Int} (hi : 0 ≤ i) (hj : 0 ≤ j) (h : padInt w i = padInt w j) :
    i = j := by
  have h' := congrArg digitsVal h
  unfold padInt at h'
  rw [digitsVal_zeros, digitsVal_zeros, fmtInt_nonneg hi, fmtInt_nonneg hj, fmtNat_val, fmtNat_val] at h'
  omega

theorem tilePrefix_injective (P P' : Bytes) (t t' : Key)
    (ht : 0 ≤ t.X ∧ 0 ≤ t.Y ∧ 0 ≤ t.Z) (ht' : 0 ≤ t'.X ∧ 0 ≤ t'.Y ∧ 0 ≤ t'.Z)
    (h : tilePrefix P t = tilePrefix P' t') : P = P' ∧ t = t' := by
  unfold tilePrefix at h
  rw [ascii_dash] at h
  obtain ⟨h1, h⟩ := sep_right _ _ _ _ (padInt_digits 2 ht.2.2) (padInt_digits 2 ht'.2.2) h
  obtain ⟨h2, h⟩ := sep_right _ _ _ _ (padInt_digits 2 ht.2.1) (padInt_digits 2 ht'.2.1) h
  obtain ⟨h3, h⟩ := sep_right _ _ _ _ (padInt_digits 2 ht.1) (padInt_digits 2 ht'.1) h
  refine ⟨h, ?_⟩
  have e1 := padInt_injective 2 ht.1 ht'.1 h3
  have e2 := padInt_injective 2 ht.2.1 ht'.2.1 h2
  have e3 := padInt_injective 2 ht.2.2 ht'.2.2 h1
  obtain ⟨X, Y, Z⟩ := t
  obtain ⟨X', Y', Z'⟩ := t'
  dsimp only at e1 e2 e3
  rw [e1, e2, e3]

theorem jobPrefix_injective (a a' : Bytes) (d nx ny nz d' nx' ny' nz' : Int)
    (h0 : 0 ≤ d ∧ 0 ≤ nx ∧ 0 ≤ ny ∧ 0 ≤ nz) (h0' : 0 ≤ d' ∧ 0 ≤ nx' ∧ 0 ≤ ny' ∧ 0 ≤ nz')
    (h : jobPrefix a d nx ny nz = jobPrefix a' d' nx' ny' nz') :
    trimStl a = trimStl a' ∧ d = d' ∧ nx = nx' ∧ ny = ny' ∧ nz = nz' := by
  have dig : ∀ i : Int, 0 ≤ i → ∀ c ∈ fmtInt i, isDigit c = true := by
    intro i hi c hc; rw [fmtInt_nonneg hi] at hc; exact fmtNat_digits _ c hc
  unfold jobPrefix at h
  rw [ascii_dash] at h
  obtain ⟨h1, h⟩ := sep_right _ _ _ _ (dig _ h0.2.2.2) (dig _ h0'.2.2.2) h
  obtain ⟨h2, h⟩ := sep_right _ _ _ _ (dig _ h0.2.2.1) (dig _ h0'.2.2.1) h
  obtain ⟨h3, h⟩ := sep_right _ _ _ _ (dig _ h0.2.1) (dig _ h0'.2.1) h
  obtain ⟨h4, h⟩ := sep_right _ _ _ _ (dig _ h0.1) (dig _ h0'.1) h
  exact ⟨h, fmtInt_injective h4, fmtInt_injective h3, fmtInt_injective h2, fmtInt_injective h1⟩

end StlDice
