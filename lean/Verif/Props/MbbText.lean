import Verif.Model.MbbText
import Verif.Lemmas.RatText

/-! # Bounding-box strings (C55) -/

namespace StlDice
namespace Spec

/-- Only blanks. -/
def Blank (l : Bytes) : Prop := ∀ c ∈ l, isSpace c = true

/-- What may come before a corner: blanks, with at most one opening bracket among them. -/
def Opening (l : Bytes) : Prop :=
  Blank l ∨ ∃ a c b, l = a ++ c :: b ∧ Blank a ∧ Blank b ∧ (c = 40 ∨ c = 91)

/-- What may come after a corner: blanks, with at most one closing bracket among them. -/
def Closing (l : Bytes) : Prop :=
  Blank l ∨ ∃ a c b, l = a ++ c :: b ∧ Blank a ∧ Blank b ∧ (c = 41 ∨ c = 93)

/-- The spelling of a number: not empty, without blanks, commas and brackets. -/
def PlainWord (w : Bytes) : Prop :=
  w ≠ [] ∧ ∀ c ∈ w, isSpace c = false ∧ c ≠ 44 ∧ c ≠ 40 ∧ c ≠ 41 ∧ c ≠ 91 ∧ c ≠ 93

/-- `x , y , z` with blanks `g1 … g4` around the commas. -/
def corner3 (x g1 g2 y g3 g4 z : Bytes) : Bytes := x ++ g1 ++ 44 :: (g2 ++ y ++ g3 ++ 44 :: (g4 ++ z))

end Spec

open Spec

/-! ## The matcher -/

theorem tryDown_top {α : Type} {f : Nat → Option α} {n : Nat} {x : α} (h : f n = some x) :
    tryDown f n = some x := by
  cases n with
  | zero => exact h
  | succ n => unfold tryDown; rw [h]

theorem tryDown_eq {α : Type} {f : Nat → Option α} {n m : Nat} {x : α} (hm : m ≤ n)
    (hn : ∀ k, m < k → k ≤ n → f k = none) (h : f m = some x) : tryDown f n = some x := by
  induction n with
  | zero => obtain rfl : m = 0 := by omega
            exact h
  | succ n ih =>
    by_cases e : m = n + 1
    · subst e; exact tryDown_top h
    · unfold tryDown
      rw [hn (n + 1) (by omega) (le_refl _)]
      exact ih (by omega) fun k h1 h2 => hn k h1 (by omega)

theorem tryDown_some {α : Type} {f : Nat → Option α} {n : Nat} {x : α} (h : tryDown f n = some x) :
    ∃ k ≤ n, f k = some x := by
  induction n with
  | zero => exact ⟨0, le_refl _, h⟩
  | succ n ih =>
    unfold tryDown at h
    cases hf : f (n + 1) with
    | some y => rw [hf] at h; exact ⟨n + 1, le_refl _, by rw [hf]; exact h⟩
    | none =>
      rw [hf] at h
      obtain ⟨k, hk, e⟩ := ih h
      exact ⟨k, by omega, e⟩

theorem takeWhile_len {p : UInt8 → Bool} {a t : Bytes} (ha : ∀ c ∈ a, p c = true)
    (ht : ∀ c r, t = c :: r → p c = false) : ((a ++ t).takeWhile p).length = a.length := by
  induction a with
  | nil =>
    cases t with
    | nil => rfl
    | cons c r => rw [List.nil_append, List.takeWhile_cons, ht c r rfl]; rfl
  | cons c a ih =>
    rw [List.cons_append, List.takeWhile_cons, ha c List.mem_cons_self]
    simp [ih fun d hd => ha d (List.mem_cons_of_mem _ hd)]

theorem takeWhile_ge {p : UInt8 → Bool} {a t : Bytes} (ha : ∀ c ∈ a, p c = true) :
    a.length ≤ ((a ++ t).takeWhile p).length := by
  induction a with
  | nil => simp
  | cons c a ih =>
    rw [List.cons_append, List.takeWhile_cons, ha c List.mem_cons_self]
    simpa using ih fun d hd => ha d (List.mem_cons_of_mem _ hd)

theorem take_takeWhile {p : UInt8 → Bool} (s : Bytes) {k : Nat} (h : k ≤ (s.takeWhile p).length) :
    ∀ c ∈ s.take k, p c = true := by
  induction s generalizing k with
  | nil => simp
  | cons c s ih =>
    intro d hd
    cases k with
    | zero => simp at hd
    | succ k =>
      rw [List.takeWhile_cons] at h
      by_cases hc : p c = true
      · rw [hc] at h
        rw [List.take_succ_cons] at hd
        rcases List.mem_cons.mp hd with rfl | hd
        · exact hc
        · exact ih (by simpa using h) d hd
      · simp [hc] at h

theorem run_star {p : UInt8 → Bool} {r : List ReItem} {a t : Bytes} {ws : List Bytes}
    (ha : ∀ c ∈ a, p c = true) (ht : ∀ c l, t = c :: l → p c = false) (h : reRun r t = some ws) :
    reRun (.star p :: r) (a ++ t) = some ws := by
  show tryDown _ _ = _
  rw [takeWhile_len ha ht]
  apply tryDown_top
  rw [List.drop_left]
  exact h

theorem run_grp {p : UInt8 → Bool} {r : List ReItem} {w t : Bytes} {ws : List Bytes} (hne : w ≠ [])
    (hw : ∀ c ∈ w, p c = true) (ht : ∀ c l, t = c :: l → p c = false) (h : reRun r t = some ws) :
    reRun (.grp p :: r) (w ++ t) = some (w :: ws) := by
  show tryDown _ _ = _
  rw [takeWhile_len hw ht]
  apply tryDown_top
  have : w.length ≠ 0 := by simpa using hne
  rw [if_neg this, List.drop_left, List.take_left, h]
  rfl

theorem run_one {p : UInt8 → Bool} {r : List ReItem} {c : UInt8} {t : Bytes} {ws : List Bytes}
    (hc : p c = true) (h : reRun r t = some ws) : reRun (.one p :: r) (c :: t) = some ws := by
  show (if p c then reRun r t else none) = _
  rw [hc]
  exact h

theorem run_opt_take {p : UInt8 → Bool} {r : List ReItem} {c : UInt8} {t : Bytes} {ws : List Bytes}
    (hc : p c = true) (h : reRun r t = some ws) : reRun (.opt p :: r) (c :: t) = some ws := by
  show (if p c then _ else _) = _
  rw [hc, h]
  rfl

theorem run_opt_skip {p : UInt8 → Bool} {r : List ReItem} {t : Bytes} {ws : List Bytes}
    (ht : ∀ c l, t = c :: l → p c = false) (h : reRun r t = some ws) : reRun (.opt p :: r) t = some ws := by
  cases t with
  | nil => exact h
  | cons c t =>
    show (if p c then _ else _) = _
    rw [ht c t rfl]
    exact h

/-- `\s*[br]?\s*` in front of a text that starts with neither. -/
theorem run_bracket {br : UInt8 → Bool} (hbr : ∀ c, br c = true → isSpace c = false) {r : List ReItem}
    {l t : Bytes} {ws : List Bytes}
    (hl : Blank l ∨ ∃ a c b, l = a ++ c :: b ∧ Blank a ∧ Blank b ∧ br c = true)
    (h1 : ∀ c s, t = c :: s → isSpace c = false) (h2 : ∀ c s, t = c :: s → br c = false)
    (h : reRun r t = some ws) :
    reRun (.star isSpace :: .opt br :: .star isSpace :: r) (l ++ t) = some ws := by
  rcases hl with hb | ⟨a, c, b, rfl, ha, hb, hc⟩
  · apply run_star hb h1
    apply run_opt_skip h2
    exact run_star (a := []) (by simp) h1 h
  · rw [List.append_assoc, List.cons_append]
    apply run_star ha
    · rintro d l e
      rw [List.cons.injEq] at e
      rw [← e.1]
      exact hbr c hc
    · apply run_opt_take hc
      exact run_star hb h1 h

theorem head_append {p : UInt8 → Bool} {w t : Bytes} (hne : w ≠ []) (hw : ∀ c ∈ w, p c = false) :
    ∀ c l, w ++ t = c :: l → p c = false := by
  intro c l e
  cases w with
  | nil => exact absurd rfl hne
  | cons d w =>
    rw [List.cons_append, List.cons.injEq] at e
    rw [← e.1]
    exact hw d List.mem_cons_self

/-- blanks then a fixed byte -/
theorem head_gap {p : UInt8 → Bool} {g t : Bytes} {d : UInt8} (hg : ∀ c ∈ g, p c = false)
    (hd : p d = false) : ∀ c l, g ++ d :: t = c :: l → p c = false := by
  intro c l e
  cases g with
  | nil => rw [List.nil_append, List.cons.injEq] at e; rw [← e.1]; exact hd
  | cons a g => rw [List.cons_append, List.cons.injEq] at e; rw [← e.1]; exact hg a List.mem_cons_self

theorem space_notCommaSp {c : UInt8} (h : isSpace c = true) : notCommaSp c = false := by
  simp [notCommaSp, h]

theorem space_notCloseSp {c : UInt8} (h : isSpace c = true) : notCloseSp c = false := by
  simp [notCloseSp, h]

/-- `(w)\s*,` -/
theorem run_word_comma {r : List ReItem} {w g t : Bytes} {ws : List Bytes} (hne : w ≠ [])
    (hw : ∀ c ∈ w, notCommaSp c = true) (hg : Blank g) (h : reRun r t = some ws) :
    reRun (.grp notCommaSp :: .star isSpace :: .one isComma :: r) (w ++ (g ++ 44 :: t)) = some (w :: ws) := by
  apply run_grp hne hw (head_gap (fun c hc => space_notCommaSp (hg c hc)) (by decide))
  apply run_star hg
  · intro c l e
    rw [List.cons.injEq] at e
    rw [← e.1]
    decide
  · exact run_one (by decide) h

theorem plain_commaSp {w : Bytes} (h : PlainWord w) : ∀ c ∈ w, notCommaSp c = true := by
  intro c hc
  obtain ⟨h1, h2, -⟩ := h.2 c hc
  simp [notCommaSp, h1, h2]

theorem plain_closeSp {w : Bytes} (h : PlainWord w) : ∀ c ∈ w, notCloseSp c = true := by
  intro c hc
  obtain ⟨h1, -, -, h2, -, h3⟩ := h.2 c hc
  simp [notCloseSp, isClose, h1, h2, h3]

theorem plain_space {w : Bytes} (h : PlainWord w) : ∀ c ∈ w, isSpace c = false := fun c hc => (h.2 c hc).1

theorem plain_open {w : Bytes} (h : PlainWord w) : ∀ c ∈ w, isOpen c = false := by
  intro c hc
  obtain ⟨-, -, h1, -, h2, -⟩ := h.2 c hc
  simp [isOpen, h1, h2]

theorem open_space (c : UInt8) (h : isOpen c = true) : isSpace c = false := by
  simp only [isOpen, Bool.or_eq_true, decide_eq_true_eq] at h
  rcases h with rfl | rfl <;> decide

theorem close_space (c : UInt8) (h : isClose c = true) : isSpace c = false := by
  simp only [isClose, Bool.or_eq_true, decide_eq_true_eq] at h
  rcases h with rfl | rfl <;> decide

theorem opening_iff (l : Bytes) :
    (Blank l ∨ ∃ a c b, l = a ++ c :: b ∧ Blank a ∧ Blank b ∧ isOpen c = true) ↔ Opening l := by
  unfold Opening isOpen
  simp

theorem closing_iff (l : Bytes) :
    (Blank l ∨ ∃ a c b, l = a ++ c :: b ∧ Blank a ∧ Blank b ∧ isClose c = true) ↔ Closing l := by
  unfold Closing isClose
  simp

/-- The second half of the expression on a minus sign, opening, corner and closing. -/
theorem run_tail {l w4 g5 g6 w5 g7 g8 w6 t2 : Bytes} (hl : Opening l) (h4 : PlainWord w4) (h5 : PlainWord w5)
    (h6 : PlainWord w6) (k5 : Blank g5) (k6 : Blank g6) (k7 : Blank g7) (k8 : Blank g8) (ht : Closing t2) :
    reRun mbbTail (45 :: (l ++ corner3 w4 g5 g6 w5 g7 g8 (w6 ++ t2))) = some [w4, w5, w6] := by
  unfold mbbTail corner3
  apply run_one (by decide)
  rw [List.append_assoc]
  refine run_bracket open_space ((opening_iff l).mpr hl) (head_append h4.1 (plain_space h4))
    (head_append h4.1 (plain_open h4)) ?_
  refine run_word_comma h4.1 (plain_commaSp h4) k5 ?_
  rw [List.append_assoc, List.append_assoc]
  refine run_star k6 (head_append h5.1 (plain_space h5)) ?_
  refine run_word_comma h5.1 (plain_commaSp h5) k7 ?_
  refine run_star k8 (head_append h6.1 (plain_space h6)) ?_
  have hend : reRun ([.star isSpace, .opt isClose, .star isSpace] : List ReItem) t2 = some [] := by
    have := run_bracket (r := []) (t := []) (ws := []) close_space ((closing_iff t2).mpr ht)
      (by simp) (by simp) rfl
    rwa [List.append_nil] at this
  refine run_grp h6.1 (plain_closeSp h6) ?_ hend
  intro c r e
  subst e
  rcases (closing_iff _).mpr ht with hb | ⟨a, d, b, e, ha, hb, hd⟩
  · exact space_notCloseSp (hb c List.mem_cons_self)
  · cases a with
    | nil =>
      rw [List.nil_append, List.cons.injEq] at e
      rw [e.1]
      simp [notCloseSp, hd]
    | cons x a =>
      rw [List.cons_append, List.cons.injEq] at e
      rw [e.1]
      exact space_notCloseSp (ha x List.mem_cons_self)

/-! ## Soundness -/

theorem star_sound {p : UInt8 → Bool} {r : List ReItem} {s : Bytes} {ws : List Bytes}
    (h : reRun (.star p :: r) s = some ws) :
    ∃ a t, s = a ++ t ∧ (∀ c ∈ a, p c = true) ∧ reRun r t = some ws := by
  obtain ⟨k, hk, e⟩ := tryDown_some (show tryDown _ _ = _ from h)
  exact ⟨s.take k, s.drop k, (List.take_append_drop k s).symm, take_takeWhile s hk, e⟩

theorem grp_sound {p : UInt8 → Bool} {r : List ReItem} {s : Bytes} {ws : List Bytes}
    (h : reRun (.grp p :: r) s = some ws) :
    ∃ w t vs, s = w ++ t ∧ ws = w :: vs ∧ w ≠ [] ∧ (∀ c ∈ w, p c = true) ∧ reRun r t = some vs := by
  obtain ⟨k, hk, e⟩ := tryDown_some (show tryDown _ _ = _ from h)
  by_cases h0 : k = 0
  · rw [if_pos h0] at e; cases e
  · rw [if_neg h0] at e
    cases hr : reRun r (s.drop k) with
    | none => rw [hr] at e; cases e
    | some vs =>
      rw [hr] at e
      refine ⟨s.take k, s.drop k, vs, (List.take_append_drop k s).symm, ?_, ?_, take_takeWhile s hk, hr⟩
      · simpa using e.symm
      · have h1 : k ≤ s.length := le_trans hk (List.takeWhile_prefix p).length_le
        intro e
        have := congrArg List.length e
        rw [List.length_take] at this
        simp only [List.length_nil] at this
        omega

theorem one_sound {p : UInt8 → Bool} {r : List ReItem} {s : Bytes} {ws : List Bytes}
    (h : reRun (.one p :: r) s = some ws) : ∃ c t, s = c :: t ∧ p c = true ∧ reRun r t = some ws := by
  cases s with
  | nil => cases h
  | cons c t =>
    by_cases hc : p c = true
    · refine ⟨c, t, rfl, hc, ?_⟩
      have h : (if p c then reRun r t else none) = some ws := h
      rwa [if_pos hc] at h
    · have h : (if p c then reRun r t else none) = some ws := h
      rw [if_neg hc] at h
      cases h

theorem opt_sound {p : UInt8 → Bool} {r : List ReItem} {s : Bytes} {ws : List Bytes}
    (h : reRun (.opt p :: r) s = some ws) :
    reRun r s = some ws ∨ ∃ c t, s = c :: t ∧ p c = true ∧ reRun r t = some ws := by
  cases s with
  | nil => exact Or.inl h
  | cons c t =>
    have h : (if p c then (match reRun r t with | some x => some x | none => reRun r (c :: t))
      else reRun r (c :: t)) = some ws := h
    by_cases hc : p c = true
    · rw [if_pos hc] at h
      cases hr : reRun r t with
      | none => rw [hr] at h; exact Or.inl h
      | some x => rw [hr] at h; exact Or.inr ⟨c, t, rfl, hc, by rw [hr]; exact h⟩
    · rw [if_neg hc] at h
      exact Or.inl h

theorem bracket_sound {br : UInt8 → Bool} {r : List ReItem} {s : Bytes} {ws : List Bytes}
    (h : reRun (.star isSpace :: .opt br :: .star isSpace :: r) s = some ws) :
    ∃ l t, s = l ++ t ∧ (Blank l ∨ ∃ a c b, l = a ++ c :: b ∧ Blank a ∧ Blank b ∧ br c = true) ∧
      reRun r t = some ws := by
  obtain ⟨a, t, rfl, ha, h⟩ := star_sound h
  rcases opt_sound h with h | ⟨c, t, rfl, hc, h⟩
  · obtain ⟨b, t, rfl, hb, h⟩ := star_sound h
    refine ⟨a ++ b, t, by rw [List.append_assoc], Or.inl ?_, h⟩
    intro c hc
    rcases List.mem_append.mp hc with hc | hc
    · exact ha c hc
    · exact hb c hc
  · obtain ⟨b, t, rfl, hb, h⟩ := star_sound h
    exact ⟨a ++ c :: b, t, by simp, Or.inr ⟨a, c, b, rfl, ha, hb, hc⟩, h⟩

theorem comma_sound {r : List ReItem} {s : Bytes} {ws : List Bytes}
    (h : reRun (.grp notCommaSp :: .star isSpace :: .one isComma :: .star isSpace :: r) s = some ws) :
    ∃ w g g' t vs, s = w ++ g ++ 44 :: (g' ++ t) ∧ ws = w :: vs ∧ w ≠ [] ∧ (∀ c ∈ w, notCommaSp c = true) ∧
      Blank g ∧ Blank g' ∧ reRun r t = some vs := by
  obtain ⟨w, t, vs, rfl, rfl, hne, hw, h⟩ := grp_sound h
  obtain ⟨g, t2, rfl, hg, h2⟩ := star_sound h
  obtain ⟨c, t3, rfl, hc, h3⟩ := one_sound h2
  obtain ⟨g', t4, rfl, hg', h4⟩ := star_sound h3
  obtain rfl : c = 44 := by simpa [isComma] using hc
  exact ⟨w, g, g', t4, vs, by simp, rfl, hne, hw, hg, hg', h4⟩

theorem tail_sound {s : Bytes} {ws : List Bytes} (h : reRun mbbTail s = some ws) :
    ∃ l w4 g5 g6 w5 g7 g8 w6 t2, s = 45 :: (l ++ corner3 w4 g5 g6 w5 g7 g8 (w6 ++ t2)) ∧ ws = [w4, w5, w6] ∧
      Opening l ∧ Blank g5 ∧ Blank g6 ∧ Blank g7 ∧ Blank g8 ∧ Closing t2 ∧
      (w4 ≠ [] ∧ ∀ c ∈ w4, notCommaSp c = true) ∧ (w5 ≠ [] ∧ ∀ c ∈ w5, notCommaSp c = true) ∧
      (w6 ≠ [] ∧ ∀ c ∈ w6, notCloseSp c = true) := by
  unfold mbbTail at h
  obtain ⟨c, t, rfl, hc, h⟩ := one_sound h
  obtain rfl : c = 45 := by simpa [isMinus] using hc
  obtain ⟨l, t, rfl, hl, h⟩ := bracket_sound h
  obtain ⟨w4, g5, g6, t, vs, rfl, rfl, n4, h4, k5, k6, h⟩ := comma_sound h
  obtain ⟨w5, g7, g8, t, vs, rfl, rfl, n5, h5, k7, k8, h⟩ := comma_sound h
  obtain ⟨w6, t, vs, rfl, rfl, n6, h6, h⟩ := grp_sound h
  obtain ⟨t2, t, rfl, ht, h⟩ := bracket_sound h
  have h : (if t = [] then some ([] : List Bytes) else none) = some vs := h
  by_cases ht0 : t = []
  · subst ht0
    rw [if_pos rfl] at h
    cases h
    exact ⟨l, w4, g5, g6, w5, g7, g8, w6, t2, by simp [corner3], rfl, (opening_iff l).mp hl, k5, k6, k7, k8,
      (closing_iff t2).mp ht, ⟨n4, h4⟩, ⟨n5, h5⟩, ⟨n6, h6⟩⟩
  · rw [if_neg ht0] at h
    cases h

/-- The middle: closing of the first corner, then the second half. -/
theorem mid_sound {s : Bytes} {ws : List Bytes}
    (h : reRun (.star isSpace :: .opt isClose :: .star isSpace :: mbbTail) s = some ws) :
    ∃ u v, s = u ++ 45 :: v ∧ 2 ≤ v.count 44 := by
  obtain ⟨t, s, rfl, ht, h⟩ := bracket_sound h
  obtain ⟨l, w4, g5, g6, w5, g7, g8, w6, t2, rfl, -, -⟩ := tail_sound h
  refine ⟨t, _, rfl, ?_⟩
  unfold corner3
  simp only [List.count_append, List.count_cons_self]
  omega

theorem count_le_of_suffix {A C u v : Bytes} (hA : (45 : UInt8) ∉ A) (h : u ++ 45 :: v <:+ A ++ 44 :: C) :
    v.count 44 ≤ C.count 44 := by
  obtain ⟨pre, h⟩ := h
  rw [← List.append_assoc] at h
  rcases List.append_eq_append_iff.mp h with ⟨x, e1, e2⟩ | ⟨y, e1, e2⟩
  · cases x with
    | nil =>
      rw [List.nil_append, List.cons.injEq] at e2
      exact absurd e2.1 (by decide)
    | cons c x =>
      rw [List.cons_append, List.cons.injEq] at e2
      exfalso
      apply hA
      rw [e1, ← e2.1]
      simp
  · cases y with
    | nil =>
      rw [List.nil_append, List.cons.injEq] at e2
      exact absurd e2.1 (by decide)
    | cons c y =>
      rw [List.cons_append, List.cons.injEq] at e2
      rw [e2.2]
      simp only [List.count_append, List.count_cons]
      omega

theorem blank_count {g : Bytes} (h : Blank g) : g.count 44 = 0 := by
  rw [List.count_eq_zero]
  intro hc
  exact absurd (h 44 hc) (by decide)

theorem plain_count {w : Bytes} (h : PlainWord w) : w.count 44 = 0 := by
  rw [List.count_eq_zero]
  intro hc
  exact (h.2 44 hc).2.1 rfl

theorem closing_count {t : Bytes} (h : Closing t) : t.count 44 = 0 := by
  rcases h with h | ⟨a, c, b, rfl, ha, hb, hc⟩
  · exact blank_count h
  · rw [List.count_append, List.count_cons, blank_count ha, blank_count hb]
    rcases hc with rfl | rfl <;> decide

/-- Blanks and an opening bracket contain no minus sign. -/
theorem opening_minus {l : Bytes} (h : Opening l) : (45 : UInt8) ∉ l := by
  rcases h with h | ⟨a, c, b, rfl, ha, hb, hc⟩
  · intro hm; exact absurd (h 45 hm) (by decide)
  · intro hm
    rcases List.mem_append.mp hm with hm | hm
    · exact absurd (ha 45 hm) (by decide)
    · rcases List.mem_cons.mp hm with e | hm
      · rcases hc with rfl | rfl <;> exact absurd e (by decide)
      · exact absurd (hb 45 hm) (by decide)

/-- Match of a box text.  The third word may contain anything but closing brackets and blanks. -/
theorem mbb_match {l1 w1 g1 g2 w2 g3 g4 w3 t1 l2 w4 g5 g6 w5 g7 g8 w6 t2 : Bytes}
    (hl1 : Opening l1) (hl2 : Opening l2) (ht1 : Closing t1) (ht2 : Closing t2)
    (k1 : Blank g1) (k2 : Blank g2) (k3 : Blank g3) (k4 : Blank g4)
    (k5 : Blank g5) (k6 : Blank g6) (k7 : Blank g7) (k8 : Blank g8)
    (h1 : PlainWord w1) (h2 : PlainWord w2) (n3 : w3 ≠ []) (h3 : ∀ c ∈ w3, notCloseSp c = true)
    (h4 : PlainWord w4) (h5 : PlainWord w5) (h6 : PlainWord w6)
    (hs : t1 ≠ [] ∨ (45 : UInt8) ∉ w4) :
    reRun mbbRE (l1 ++ corner3 w1 g1 g2 w2 g3 g4 (w3 ++ (t1 ++
      45 :: (l2 ++ corner3 w4 g5 g6 w5 g7 g8 (w6 ++ t2))))) = some [w1, w2, w3, w4, w5, w6] := by
  have htail := run_tail (l := l2) hl2 h4 h5 h6 k5 k6 k7 k8 ht2
  have h3s : ∀ c ∈ w3, isSpace c = false := by
    intro c hc
    have := h3 c hc
    simp only [notCloseSp, Bool.not_eq_true', Bool.or_eq_false_iff] at this
    exact this.2
  unfold mbbRE
  rw [corner3, List.append_assoc w1]
  refine run_bracket open_space ((opening_iff l1).mpr hl1) (head_append h1.1 (plain_space h1))
    (head_append h1.1 (plain_open h1)) ?_
  refine run_word_comma h1.1 (plain_commaSp h1) k1 ?_
  rw [List.append_assoc, List.append_assoc]
  refine run_star k2 (head_append h2.1 (plain_space h2)) ?_
  refine run_word_comma h2.1 (plain_commaSp h2) k3 ?_
  refine run_star k4 (head_append n3 h3s) ?_
  have hmid : reRun (.star isSpace :: .opt isClose :: .star isSpace :: mbbTail)
      (t1 ++ 45 :: (l2 ++ corner3 w4 g5 g6 w5 g7 g8 (w6 ++ t2))) = some [w4, w5, w6] := by
    refine run_bracket close_space ((closing_iff t1).mpr ht1) ?_ ?_ htail
    · intro c r e; rw [List.cons.injEq] at e; rw [← e.1]; decide
    · intro c r e; rw [List.cons.injEq] at e; rw [← e.1]; decide
  by_cases hd : t1 ≠ []
  · refine run_grp n3 h3 ?_ hmid
    intro c r e
    rcases (closing_iff t1).mpr ht1 with hb | ⟨a, d, b, rfl, ha, hb, hdc⟩
    · cases t1 with
      | nil => exact absurd rfl hd
      | cons x t1 =>
        rw [List.cons_append, List.cons.injEq] at e
        rw [← e.1]
        exact space_notCloseSp (hb x List.mem_cons_self)
    · cases a with
      | nil =>
        rw [List.nil_append, List.cons_append, List.cons.injEq] at e
        rw [← e.1]
        simp [notCloseSp, hdc]
      | cons x a =>
        rw [List.cons_append, List.cons_append, List.cons.injEq] at e
        rw [← e.1]
        exact space_notCloseSp (ha x List.mem_cons_self)
  · have hm : (45 : UInt8) ∉ w4 := by
      rcases hs with h | h
      · exact absurd h hd
      · exact h
    have ht0 : t1 = [] := by simpa using hd
    subst ht0
    rw [List.nil_append] at hmid ⊢
    show tryDown _ _ = _
    have h30 : w3.length ≠ 0 := by simpa using n3
    apply tryDown_eq (takeWhile_ge h3)
    · intro k hk _
      rw [if_neg (by omega)]
      cases hr : reRun (.star isSpace :: .opt isClose :: .star isSpace :: mbbTail)
          ((w3 ++ 45 :: (l2 ++ corner3 w4 g5 g6 w5 g7 g8 (w6 ++ t2))).drop k) with
      | none =>
        show Option.map _ (reRun (.star isSpace :: .opt isClose :: .star isSpace :: mbbTail) _) = none
        rw [hr]
        rfl
      | some vs =>
        exfalso
        obtain ⟨u, v, e, hv⟩ := mid_sound hr
        obtain ⟨j, rfl⟩ : ∃ j, k = w3.length + (j + 1) := ⟨k - w3.length - 1, by omega⟩
        rw [← List.drop_drop, List.drop_left, List.drop_succ_cons] at e
        have hsuf : u ++ 45 :: v <:+ l2 ++ corner3 w4 g5 g6 w5 g7 g8 (w6 ++ t2) := by
          rw [← e]
          exact List.drop_suffix _ _
        unfold corner3 at hsuf
        rw [← List.append_assoc] at hsuf
        have hA : (45 : UInt8) ∉ l2 ++ (w4 ++ g5) := by
          intro hmm
          rcases List.mem_append.mp hmm with h | h
          · exact opening_minus hl2 h
          · rcases List.mem_append.mp h with h | h
            · exact hm h
            · exact absurd (k5 45 h) (by decide)
        have := count_le_of_suffix hA hsuf
        simp only [List.count_append, List.count_cons, blank_count k6, plain_count h5, blank_count k7,
          blank_count k8, plain_count h6, closing_count ht2] at this
        have hz : ((44 : UInt8) == 44) = true := by decide
        rw [hz] at this
        simp only [if_true] at this
        omega
    · rw [if_neg h30, List.drop_left, List.take_left]
      exact congrArg (Option.map _) hmid

/-! ## parseMBB -/

section
variable {F : Type} [FloatText F]

/-- **C55.** A box written as six numbers, with commas, a minus sign, optional brackets and blanks in
    all the places where they are allowed, is parsed to exactly these numbers — provided something
    stands between the third number and the minus sign, or the fourth number contains no minus sign
    (so always with brackets). -/
theorem parseMBB_ok {l1 w1 g1 g2 w2 g3 g4 w3 t1 l2 w4 g5 g6 w5 g7 g8 w6 t2 : Bytes}
    (hl1 : Opening l1) (hl2 : Opening l2) (ht1 : Closing t1) (ht2 : Closing t2)
    (k1 : Blank g1) (k2 : Blank g2) (k3 : Blank g3) (k4 : Blank g4)
    (k5 : Blank g5) (k6 : Blank g6) (k7 : Blank g7) (k8 : Blank g8)
    (h1 : PlainWord w1) (h2 : PlainWord w2) (h3 : PlainWord w3)
    (h4 : PlainWord w4) (h5 : PlainWord w5) (h6 : PlainWord w6)
    (hs : t1 ≠ [] ∨ (45 : UInt8) ∉ w4) {x1 y1 z1 x2 y2 z2 : F}
    (p1 : FloatText.parseFloat w1 = some x1) (p2 : FloatText.parseFloat w2 = some y1)
    (p3 : FloatText.parseFloat w3 = some z1) (p4 : FloatText.parseFloat w4 = some x2)
    (p5 : FloatText.parseFloat w5 = some y2) (p6 : FloatText.parseFloat w6 = some z2) :
    parseMBB (l1 ++ corner3 w1 g1 g2 w2 g3 g4 w3 ++ t1 ++ 45 :: (l2 ++ corner3 w4 g5 g6 w5 g7 g8 w6 ++ t2)) =
      some ⟨⟨x1, y1, z1⟩, ⟨x2, y2, z2⟩⟩ := by
  have h := mbb_match hl1 hl2 ht1 ht2 k1 k2 k3 k4 k5 k6 k7 k8 h1 h2 h3.1 (plain_closeSp h3) h4 h5 h6 hs
  have e : l1 ++ corner3 w1 g1 g2 w2 g3 g4 w3 ++ t1 ++ 45 :: (l2 ++ corner3 w4 g5 g6 w5 g7 g8 w6 ++ t2) =
      l1 ++ corner3 w1 g1 g2 w2 g3 g4 (w3 ++ (t1 ++
        45 :: (l2 ++ corner3 w4 g5 g6 w5 g7 g8 (w6 ++ t2)))) := by
    unfold corner3
    simp
  unfold parseMBB
  rw [e, h]
  dsimp only
  rw [p1, p2, p3, p4, p5, p6]

/-- **C55.** Whatever is accepted has this shape: strings of another shape are rejected. -/
theorem parseMBB_shape {s : Bytes} {box : BinVOX.Box F} (h : parseMBB s = some box) :
    ∃ l1 w1 g1 g2 w2 g3 g4 w3 t1 l2 w4 g5 g6 w5 g7 g8 w6 t2 : Bytes,
      s = l1 ++ corner3 w1 g1 g2 w2 g3 g4 w3 ++ t1 ++ 45 :: (l2 ++ corner3 w4 g5 g6 w5 g7 g8 w6 ++ t2) ∧
      Opening l1 ∧ Opening l2 ∧ Closing t1 ∧ Closing t2 ∧
      Blank g1 ∧ Blank g2 ∧ Blank g3 ∧ Blank g4 ∧ Blank g5 ∧ Blank g6 ∧ Blank g7 ∧ Blank g8 ∧
      FloatText.parseFloat w1 = some box.Min.X ∧ FloatText.parseFloat w2 = some box.Min.Y ∧
      FloatText.parseFloat w3 = some box.Min.Z ∧ FloatText.parseFloat w4 = some box.Max.X ∧
      FloatText.parseFloat w5 = some box.Max.Y ∧ FloatText.parseFloat w6 = some box.Max.Z := by
  unfold parseMBB at h
  cases hm : reRun mbbRE s with
  | none => rw [hm] at h; cases h
  | some ws =>
    rw [hm] at h
    unfold mbbRE at hm
    obtain ⟨l1, t, rfl, hl1, hm⟩ := bracket_sound hm
    obtain ⟨w1, g1, g2, t, vs, rfl, rfl, n1, h1, k1, k2, hm⟩ := comma_sound hm
    obtain ⟨w2, g3, g4, t, vs, rfl, rfl, n2, h2, k3, k4, hm⟩ := comma_sound hm
    obtain ⟨w3, t, vs, rfl, rfl, n3, h3, hm⟩ := grp_sound hm
    obtain ⟨t1, t, rfl, ht1, hm⟩ := bracket_sound hm
    obtain ⟨l2, w4, g5, g6, w5, g7, g8, w6, t2, rfl, rfl, hl2, k5, k6, k7, k8, ht2, -⟩ := tail_sound hm
    dsimp only at h
    split at h
    · rename_i hp1 hp2 hp3 hp4 hp5 hp6
      cases h
      exact ⟨l1, w1, g1, g2, w2, g3, g4, w3, t1, l2, w4, g5, g6, w5, g7, g8, w6, t2, by simp [corner3],
        (opening_iff l1).mp hl1, hl2, (closing_iff t1).mp ht1, ht2, k1, k2, k3, k4, k5, k6, k7, k8,
        hp1, hp2, hp3, hp4, hp5, hp6⟩
    · cases h

/-- **C55, disagreement.** Without anything between the third number and the minus sign, a minus sign
    in the fourth number is taken for the one in the middle: the string is rejected, since no number
    is spelled with a minus sign after a complete number. -/
theorem parseMBB_unbracketed_minus {w1 w2 w3 p q w5 w6 : Bytes}
    (h1 : PlainWord w1) (h2 : PlainWord w2) (h3 : PlainWord w3) (hp : ∀ c ∈ p, notCloseSp c = true)
    (hq : PlainWord q) (hm : (45 : UInt8) ∉ q) (h5 : PlainWord w5) (h6 : PlainWord w6)
    (hbad : (FloatText.parseFloat (w3 ++ 45 :: p) : Option F) = none) :
    (parseMBB (w1 ++ 44 :: w2 ++ 44 :: w3 ++ 45 :: (p ++ 45 :: q) ++ 44 :: w5 ++ 44 :: w6) : Option (BinVOX.Box F)) =
      none := by
  have b0 : Blank [] := by intro c hc; cases hc
  have o0 : Opening [] := Or.inl b0
  have c0 : Closing [] := Or.inl b0
  have h3' : ∀ c ∈ w3 ++ 45 :: p, notCloseSp c = true := by
    intro c hc
    rcases List.mem_append.mp hc with hc | hc
    · exact plain_closeSp h3 c hc
    · rcases List.mem_cons.mp hc with rfl | hc
      · decide
      · exact hp c hc
  have h := mbb_match o0 o0 c0 c0 b0 b0 b0 b0 b0 b0 b0 b0 h1 h2 (w3 := w3 ++ 45 :: p)
    (by simp) h3' hq h5 h6 (Or.inr hm)
  have e : w1 ++ 44 :: w2 ++ 44 :: w3 ++ 45 :: (p ++ 45 :: q) ++ 44 :: w5 ++ 44 :: w6 =
      [] ++ corner3 w1 [] [] w2 [] [] ((w3 ++ 45 :: p) ++ ([] ++ 45 :: ([] ++ corner3 q [] [] w5 [] [] (w6 ++ [])))) := by
    simp [corner3]
  unfold parseMBB
  rw [e, h]
  dsimp only
  rw [hbad]
  split
  · simp_all
  · rfl

/-- **C55.** The box that `stldice` logs is read back as the same box when given with `-mbb`. -/
theorem parseMBB_logged (fmtV : F → Bytes) (hf : ∀ x, PlainWord (fmtV x))
    (hpf : ∀ x, FloatText.parseFloat (fmtV x) = some x) (b : BinVOX.Box F) :
    parseMBB (mbbText fmtV b) = some b := by
  have b0 : Blank [] := by intro c hc; cases hc
  have o1 : Opening [40] := Or.inr ⟨[], 40, [], rfl, b0, b0, Or.inl rfl⟩
  have c1 : Closing [41] := Or.inr ⟨[], 41, [], rfl, b0, b0, Or.inl rfl⟩
  have h := parseMBB_ok o1 o1 c1 c1 b0 b0 b0 b0 b0 b0 b0 b0 (hf b.Min.X) (hf b.Min.Y) (hf b.Min.Z)
    (hf b.Max.X) (hf b.Max.Y) (hf b.Max.Z) (Or.inl (by simp)) (hpf b.Min.X) (hpf b.Min.Y) (hpf b.Min.Z)
    (hpf b.Max.X) (hpf b.Max.Y) (hpf b.Max.Z)
  rw [← h]
  congr 1
  have e1 : ascii "(" = [40] := by decide
  have e2 : ascii "," = [44] := by decide
  have e3 : ascii ")-(" = [41, 45, 40] := by decide
  have e4 : ascii ")" = [41] := by decide
  unfold mbbText corner3
  rw [e1, e2, e3, e4]
  simp

end

/-- The hypotheses are met: the text form of the rationals used here. -/
theorem ratText_plain (q : ℚ) : PlainWord (FloatText.fmtG q) := by
  constructor
  · exact LawfulFloatText.fmt_ne_nil q
  · intro c hc
    have hc : c ∈ fmtInt q.num ++ 47 :: fmtNat q.den := hc
    have : isDigit c = true ∨ c = 45 ∨ c = 47 := by
      rcases List.mem_append.mp hc with h | h
      · rcases fmtInt_chars _ c h with h | h
        · exact Or.inl h
        · exact Or.inr (Or.inl h)
      · rcases List.mem_cons.mp h with h | h
        · exact Or.inr (Or.inr h)
        · exact Or.inl (fmtNat_digits _ c h)
    rcases this with h | rfl | rfl
    · refine ⟨digit_not_space h, ?_, ?_, ?_, ?_, ?_⟩ <;> rintro rfl <;> revert h <;> decide
    · decide
    · decide

example (b : BinVOX.Box ℚ) : parseMBB (mbbText FloatText.fmtG b) = some b :=
  parseMBB_logged _ ratText_plain LawfulFloatText.parse_fmt b

/-- "1/1,2/1,3/1--4/1,5/1,6/1": six plain numbers, but not parsed to them. -/
example : reRun mbbRE (ascii "1/1,2/1,3/1--4/1,5/1,6/1") =
    some [ascii "1/1", ascii "2/1", ascii "3/1-", ascii "4/1", ascii "5/1", ascii "6/1"] := by decide +kernel

/-- `parseMBB_ok` and `parseMBB_shape` on "(0/1 , 0/1, 0/1) -[1/1,2/1,3/1]". -/
theorem exMBB : (parseMBB ([40] ++ Spec.corner3 (ascii "0/1") [32] [32] (ascii "0/1") [] [32] (ascii "0/1") ++ [41, 32] ++ 45 ::
    ([91] ++ Spec.corner3 (ascii "1/1") [] [] (ascii "2/1") [] [] (ascii "3/1") ++ [93])) : Option (BinVOX.Box ℚ)) = some ⟨⟨0, 0, 0⟩, ⟨1, 2, 3⟩⟩ := by
  refine parseMBB_ok (.inr ⟨[], 40, [], rfl, ?_, ?_, .inl rfl⟩) (.inr ⟨[], 91, [], rfl, ?_, ?_, .inr rfl⟩)
    (.inr ⟨[], 41, [32], rfl, ?_, ?_, .inl rfl⟩) (.inr ⟨[], 93, [], rfl, ?_, ?_, .inr rfl⟩)
    ?_ ?_ ?_ ?_ ?_ ?_ ?_ ?_ ?_ ?_ ?_ ?_ ?_ ?_ (.inl (by decide)) ?_ ?_ ?_ ?_ ?_ ?_
  all_goals first | decide +kernel | (unfold Spec.Blank; decide +kernel) | (unfold Spec.PlainWord; decide +kernel)

example := parseMBB_shape exMBB

/-- `parseMBB_unbracketed_minus` on "0,0,0--1,2,3". -/
example : (parseMBB (ascii "0" ++ 44 :: ascii "0" ++ 44 :: ascii "0" ++ 45 :: ([] ++ 45 :: ascii "1") ++ 44 :: ascii "2" ++
    44 :: ascii "3") : Option (BinVOX.Box ℚ)) = none := by
  refine parseMBB_unbracketed_minus ?_ ?_ ?_ ?_ ?_ ?_ ?_ ?_ ?_
  all_goals first | decide +kernel | (unfold Spec.PlainWord; decide +kernel)

end StlDice
