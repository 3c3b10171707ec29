import Verif.Model.IeeeText
import Verif.Spec.IeeeText
import Verif.Props.IntText
import Verif.Props.FloatText

/-! # Reading all float64 texts: lemmas -/

namespace StlDice.IeeeT
open Spec F64 Flag Ieee

/-! ## Characters -/

theorem chars_all : ∀ n : Nat, n < 256 →
    (isMant false (UInt8.ofNat n) = true ↔ UInt8.ofNat n = 95 ∨ ∃ v < 10, digitVal (UInt8.ofNat n) = some v) ∧
    (isMant true (UInt8.ofNat n) = true ↔ UInt8.ofNat n = 95 ∨ ∃ v < 16, digitVal (UInt8.ofNat n) = some v) ∧
    (isDigit (UInt8.ofNat n) = true ↔ UInt8.ofNat n ≠ 95 ∧ isMant false (UInt8.ofNat n) = true) ∧
    (UInt8.ofNat n ||| 32 = 101 ↔ UInt8.ofNat n = 101 ∨ UInt8.ofNat n = 69) ∧
    (UInt8.ofNat n ||| 32 = 112 ↔ UInt8.ofNat n = 112 ∨ UInt8.ofNat n = 80) ∧
    (UInt8.ofNat n ||| 32 = 120 ↔ UInt8.ofNat n = 120 ∨ UInt8.ofNat n = 88) ∧
    (isDigit (UInt8.ofNat n) = true → digitVal (UInt8.ofNat n) = some ((UInt8.ofNat n).toNat - 48)) ∧
    (isMant false (UInt8.ofNat n) = true → ∀ i ∈ [Last.start, .digit, .under, .other],
      usStep true (some i) (UInt8.ofNat n) = usStep false (some i) (UInt8.ofNat n)) := by
  decide +kernel

theorem chars (c : UInt8) :
    (isMant false c = true ↔ c = 95 ∨ ∃ v < 10, digitVal c = some v) ∧
    (isMant true c = true ↔ c = 95 ∨ ∃ v < 16, digitVal c = some v) ∧
    (isDigit c = true ↔ c ≠ 95 ∧ isMant false c = true) ∧
    (c ||| 32 = 101 ↔ c = 101 ∨ c = 69) ∧ (c ||| 32 = 112 ↔ c = 112 ∨ c = 80) ∧ (c ||| 32 = 120 ↔ c = 120 ∨ c = 88) ∧
    (isDigit c = true → digitVal c = some (c.toNat - 48)) ∧
    (isMant false c = true → ∀ i, usStep true (some i) c = usStep false (some i) c) := by
  have := chars_all c.toNat (UInt8.toNat_lt c)
  rw [UInt8.ofNat_toNat] at this
  obtain ⟨a1, a2, a3, a4, a5, a6, a7, a8⟩ := this
  exact ⟨a1, a2, a3, a4, a5, a6, a7, fun h i => a8 h i (by cases i <;> simp)⟩

/-- The base of the digits. -/
def Base (base : Nat) : Prop := base = 10 ∨ base = 16

theorem Base.mem {base : Nat} (h : Base base) : base ∈ [2, 8, 10, 16] := by
  rcases h with rfl | rfl <;> simp

theorem Base.eq {base : Nat} (h : Base base) : (if (base == 16) = true then 16 else 10) = base := by
  rcases h with rfl | rfl <;> rfl

theorem mant_iff {base : Nat} (h : Base base) (c : UInt8) :
    isMant (base == 16) c = true ↔ c = 95 ∨ ∃ v < base, digitVal c = some v := by
  rcases h with rfl | rfl
  · exact (chars c).1
  · exact (chars c).2.1

/-- All characters are digits or underscores. -/
def Mant (base : Nat) (w : Bytes) : Prop := ∀ c ∈ w, isMant (base == 16) c = true

theorem digitCount_cons (c : UInt8) (s : Bytes) : digitCount (c :: s) = if c = 95 then digitCount s else digitCount s + 1 := by
  unfold digitCount
  rw [List.filter_cons]
  by_cases h : c = 95
  · simp [h]
  · simp [h]

theorem digitCount_le (s : Bytes) : digitCount s ≤ s.length := List.length_filter_le _ _

/-- Digits and underscores always have a value. -/
theorem mant_reads {base : Nat} (hb : Base base) : ∀ (w : Bytes), Mant base w → ∃ m, m < base ^ digitCount w ∧
    ∀ n, digitsIn base n w = some (n * base ^ digitCount w + m) := by
  intro w
  induction w with
  | nil => intro _; exact ⟨0, by simp [digitCount], fun n => by rw [digitsIn]; simp [digitCount]⟩
  | cons c w ih =>
    intro h
    obtain ⟨m, hm, ih⟩ := ih (fun c hc => h c (List.mem_cons_of_mem _ hc))
    rcases (mant_iff hb c).mp (h c List.mem_cons_self) with rfl | ⟨v, hv, hd⟩
    · refine ⟨m, ?_, fun n => ?_⟩
      · rw [digitCount_cons, if_pos rfl]; exact hm
      · rw [digitsIn, if_pos rfl, ih, digitCount_cons, if_pos rfl]
    · have hc := (usStep_digit hb.mem hd hv .start).1
      refine ⟨v * base ^ digitCount w + m, ?_, fun n => ?_⟩
      · rw [digitCount_cons, if_neg hc, pow_succ]
        have : (v + 1) * base ^ digitCount w ≤ base * base ^ digitCount w := Nat.mul_le_mul_right _ hv
        rw [Nat.add_mul, one_mul] at this
        rw [mul_comm _ base]
        omega
      · rw [digitsIn_digit hb.mem hd hv, ih, digitCount_cons, if_neg hc, pow_succ]
        congr 1
        ring

theorem Mant.append {base : Nat} {a b : Bytes} : Mant base (a ++ b) ↔ Mant base a ∧ Mant base b := by
  unfold Mant
  constructor
  · intro h
    exact ⟨fun c hc => h c (List.mem_append_left _ hc), fun c hc => h c (List.mem_append_right _ hc)⟩
  · rintro ⟨h1, h2⟩ c hc
    rcases List.mem_append.mp hc with h | h
    · exact h1 c h
    · exact h2 c h

theorem digitText_mant {base : Nat} (hb : Base base) {s : Bytes} {n : Nat} (h : DigitText base s n) : Mant base s := by
  have one : ∀ {c v}, IsDigitOf base c v → isMant (base == 16) c = true := by
    intro c v hd
    obtain ⟨h1, h2⟩ := (digitVal_iff hb.mem c v).mpr hd
    exact (mant_iff hb c).mpr (.inr ⟨v, h2, h1⟩)
  induction h with
  | one h => intro c hc; rw [List.mem_singleton.mp hc]; exact one h
  | digit hs h ih => exact Mant.append.mpr ⟨ih, fun c hc => by rw [List.mem_singleton.mp hc]; exact one h⟩
  | under hs h ih =>
    refine Mant.append.mpr ⟨ih, fun c hc => ?_⟩
    rcases List.mem_cons.mp hc with rfl | hc
    · exact (mant_iff hb _).mpr (.inl rfl)
    · rw [List.mem_singleton.mp hc]; exact one h

/-! ## Underscores -/

/-- A character that is no digit and no underscore ends a group of digits. -/
theorem usLoop_sep {hex : Bool} {c : UInt8} (hc : c ∈ [(43 : UInt8), 45, 46, 101, 69, 112, 80]) (he : hex = true → c ≠ 101 ∧ c ≠ 69) (i : Last)
    (w r : Bytes) : usLoop hex i (w ++ c :: r) = (usLoop hex i w && usLoop hex .other r) := by
  have step : ∀ j, usStep hex (some j) c = if j = .under then none else some .other := by
    intro j
    simp only [List.mem_cons, List.not_mem_nil, or_false] at hc
    rcases hc with rfl | rfl | rfl | rfl | rfl | rfl | rfl <;> cases hex <;> cases j <;>
      first | decide | (exact absurd rfl (he rfl).1) | (exact absurd rfl (he rfl).2)
  unfold usLoop
  rw [List.foldl_append, List.foldl_cons]
  cases h : w.foldl (usStep hex) (some i) with
  | none => rw [show usStep hex none c = none from rfl, foldl_none]; rfl
  | some j =>
    rw [step]
    cases j with
    | under => rw [if_pos rfl, foldl_none]; rfl
    | start => rw [if_neg (by decide)]; rfl
    | digit => rw [if_neg (by decide)]; rfl
    | other => rw [if_neg (by decide)]; rfl

theorem usLoop_mant {w : Bytes} (h : Mant 10 w) (i : Last) : usLoop true i w = usLoop false i w := by
  have : ∀ (w : Bytes) (i : Option Last), Mant 10 w → w.foldl (usStep true) i = w.foldl (usStep false) i := by
    intro w
    induction w with
    | nil => intro i _; rfl
    | cons c w ih =>
      intro i h
      rw [List.foldl_cons, List.foldl_cons]
      have : usStep true i c = usStep false i c := by
        cases i with
        | none => rfl
        | some i => exact (chars c).2.2.2.2.2.2.2 (h c List.mem_cons_self) i
      rw [this]
      exact ih _ (fun c hc => h c (List.mem_cons_of_mem _ hc))
  unfold usLoop
  rw [this w _ h]

/-- Nothing, or digits with single underscores between them. -/
def OptDigits (base : Nat) (s : Bytes) (n : Nat) : Prop := s = [] ∧ n = 0 ∨ DigitText base s n

/-- A group of digits that does not follow a digit. -/
theorem group_iff {base : Nat} (hb : Base base) {i : Last} (hi : i = .start ∨ i = .other) (w : Bytes) (n : Nat) :
    OptDigits base w n ↔ Mant base w ∧ usLoop (base == 16) i w = true ∧ digitsIn base 0 w = some n := by
  constructor
  · rintro (⟨rfl, rfl⟩ | h)
    · refine ⟨fun c hc => (by cases hc), ?_, rfl⟩
      rcases hi with rfl | rfl <;> rfl
    · exact ⟨digitText_mant hb h, usLoop_digits hb.mem h i, (digitText_reads hb.mem h).1⟩
  · rintro ⟨-, hu, hd⟩
    cases w with
    | nil => rw [digitsIn] at hd; injection hd with hd; exact .inl ⟨rfl, hd.symm⟩
    | cons c w =>
      refine .inr (digitText_start hb.mem ?_ hd hu)
      rintro rfl
      rw [usLoop_cons, usStep_under, if_neg (by rcases hi with rfl | rfl <;> decide)] at hu
      exact absurd hu (by nofun)

/-- A group of digits after the prefix of the base. -/
theorem group_prefix_iff {base : Nat} (hb : Base base) (w : Bytes) (n : Nat) :
    (OptDigits base w n ∨ ∃ t, w = 95 :: t ∧ DigitText base t n) ↔
      Mant base w ∧ usLoop (base == 16) .digit w = true ∧ digitsIn base 0 w = some n := by
  constructor
  · rintro (h | ⟨t, rfl, h⟩)
    · rcases h with ⟨rfl, rfl⟩ | h
      · exact ⟨fun c hc => (by cases hc), rfl, rfl⟩
      · exact ⟨digitText_mant hb h, usLoop_digits hb.mem h _, (digitText_reads hb.mem h).1⟩
    · refine ⟨?_, ?_, ?_⟩
      · intro c hc
        rcases List.mem_cons.mp hc with rfl | hc
        · exact (mant_iff hb _).mpr (.inl rfl)
        · exact digitText_mant hb h c hc
      · rw [usLoop_cons, usStep_under, if_pos rfl]
        exact usLoop_digits hb.mem h _
      · rw [digitsIn, if_pos rfl]; exact (digitText_reads hb.mem h).1
  · rintro ⟨hm, hu, hd⟩
    cases w with
    | nil => rw [digitsIn] at hd; injection hd with hd; exact .inl (.inl ⟨rfl, hd.symm⟩)
    | cons c w =>
      by_cases hc : c = 95
      · subst hc
        rw [usLoop_cons, usStep_under, if_pos rfl] at hu
        dsimp only at hu
        rw [digitsIn, if_pos rfl] at hd
        cases w with
        | nil => exact absurd hu (by simp [usLoop])
        | cons d w =>
          refine .inr ⟨d :: w, rfl, digitText_start hb.mem ?_ hd hu⟩
          rintro rfl
          rw [usLoop_cons, usStep_under, if_neg (by decide)] at hu
          exact absurd hu (by nofun)
      · exact .inl (.inr (digitText_start hb.mem hc hd hu))

theorem usLoop_no_under (hex : Bool) : ∀ (s : Bytes) (i : Last), i ≠ .under → (95 : UInt8) ∉ s → usLoop hex i s = true := by
  intro s
  induction s with
  | nil => intro i hi _; cases i <;> first | rfl | exact absurd rfl hi
  | cons c s ih =>
    intro i hi h
    rw [List.mem_cons, not_or] at h
    rw [usLoop_cons]
    have : ∃ j, usStep hex (some i) c = some j ∧ j ≠ .under := by
      unfold usStep
      split
      · rename_i e; exact absurd e (by nofun)
      · rename_i e
        injection e with e
        subst e
        split
        · exact ⟨_, rfl, by decide⟩
        · rw [if_neg (fun e => h.1 e.symm)]
          exact ⟨_, rfl, by decide⟩
    obtain ⟨j, e, hj⟩ := this
    rw [e]
    exact ih j hj h.2

theorem underscoreOK_plain {s : Bytes} (h : (95 : UInt8) ∉ s) : underscoreOK s = true := by
  have body : ∀ s : Bytes, (95 : UInt8) ∉ s → usBody s = true := by
    intro s h
    unfold usBody
    split
    · have h2 : ∀ r b, (95 : UInt8) ∉ (48 : UInt8) :: b :: r → (95 : UInt8) ∉ r := fun r b h hm =>
        h (List.mem_cons_of_mem _ (List.mem_cons_of_mem _ hm))
      split
      · exact usLoop_no_under _ _ _ (by decide) (h2 _ _ h)
      · split
        · exact usLoop_no_under _ _ _ (by decide) (h2 _ _ h)
        · exact usLoop_no_under _ _ _ (by decide) h
    · exact usLoop_no_under _ _ _ (by decide) h
  cases s with
  | nil => exact body [] h
  | cons c s =>
    rw [underscoreOK]
    split
    · exact body _ (fun hm => h (List.mem_cons_of_mem _ hm))
    · exact body _ h

end StlDice.IeeeT
