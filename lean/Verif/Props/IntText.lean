import Verif.Spec.IntText
import Verif.Props.FlagParse

/-! # The integers a flag accepts (C96) -/

namespace StlDice
namespace Flag
open Spec

/-! ## The digits -/

theorem digitVal_iff_all : ∀ n : Nat, n < 256 → ∀ base, base ∈ [2, 8, 10, 16] → ∀ v < 16, 
    ((digitVal (UInt8.ofNat n) = some v ∧ v < base) ↔ IsDigitOf base (UInt8.ofNat n) v) := by
  unfold IsDigitOf
  decide +kernel

theorem digitVal_iff {base : Nat} (hb : base ∈ [2, 8, 10, 16]) (c : UInt8) (v : Nat) :
    (digitVal c = some v ∧ v < base) ↔ IsDigitOf base c v := by
  have hb16 : base ≤ 16 := by
    simp only [List.mem_cons, List.not_mem_nil, or_false] at hb
    omega
  by_cases hv : v < 16
  · have := digitVal_iff_all c.toNat (UInt8.toNat_lt c) base hb v hv
    rwa [UInt8.ofNat_toNat] at this
  · constructor
    · intro h; omega
    · intro h; have := h.1; omega

/-- The digits are digits to `underscoreOK` too. -/
theorem usStep_digit_all : ∀ n : Nat, n < 256 → ∀ base, base ∈ [2, 8, 10, 16] → ∀ v < 16, 
    (digitVal (UInt8.ofNat n) = some v ∧ v < base) → UInt8.ofNat n ≠ 95 ∧
      ∀ i ∈ [Last.start, .digit, .under, .other], usStep (base == 16) (some i) (UInt8.ofNat n) = some .digit := by
  decide +kernel

theorem usStep_digit {base : Nat} (hb : base ∈ [2, 8, 10, 16]) {c : UInt8} {v : Nat} (h : digitVal c = some v) (hv : v < base)
    (i : Last) : c ≠ 95 ∧ usStep (base == 16) (some i) c = some .digit := by
  have hb16 : base ≤ 16 := by
    simp only [List.mem_cons, List.not_mem_nil, or_false] at hb
    omega
  have := usStep_digit_all c.toNat (UInt8.toNat_lt c) base hb v (by omega)
  rw [UInt8.ofNat_toNat] at this
  have := this ⟨h, hv⟩
  exact ⟨this.1, this.2 i (by cases i <;> simp)⟩

theorem usStep_under (hex : Bool) (i : Last) : usStep hex (some i) 95 = if i = .digit then some .under else none := by
  cases hex <;> cases i <;> decide

theorem foldl_none (hex : Bool) (s : Bytes) : s.foldl (usStep hex) none = none := by
  induction s with
  | nil => rfl
  | cons c s ih => exact ih

theorem usLoop_cons (hex : Bool) (i : Last) (c : UInt8) (s : Bytes) :
    usLoop hex i (c :: s) = match usStep hex (some i) c with | none => false | some j => usLoop hex j s := by
  rw [usLoop, List.foldl_cons]
  cases h : usStep hex (some i) c with
  | none => dsimp only; rw [foldl_none]
  | some j => rfl

theorem digitsIn_append (base : Nat) (t : Bytes) : ∀ (s : Bytes) (n : Nat),
    digitsIn base n (s ++ t) = (digitsIn base n s).bind fun m => digitsIn base m t := by
  intro s
  induction s with
  | nil => intro n; rfl
  | cons c s ih =>
    intro n
    rw [List.cons_append, digitsIn, digitsIn]
    split
    · exact ih n
    · cases digitVal c with
      | none => rfl
      | some v =>
        dsimp only
        split
        · exact ih _
        · rfl

theorem digitsIn_digit {base : Nat} (hb : base ∈ [2, 8, 10, 16]) {c : UInt8} {v : Nat} (h : digitVal c = some v) (hv : v < base)
    (n : Nat) (s : Bytes) : digitsIn base n (c :: s) = digitsIn base (n * base + v) s := by
  rw [digitsIn, if_neg (usStep_digit hb h hv .start).1, h]
  dsimp only
  rw [if_pos hv]

/-- Reading on after some digits. -/
theorem digitText_of {base : Nat} (hb : base ∈ [2, 8, 10, 16]) : ∀ (k : Nat) (s p : Bytes) (n m : Nat), s.length ≤ k →
    DigitText base p n → digitsIn base n s = some m → usLoop (base == 16) .digit s = true → DigitText base (p ++ s) m := by
  intro k
  induction k with
  | zero =>
    intro s p n m hk hp hd _
    cases s with
    | nil => rw [digitsIn] at hd; injection hd with hd; rw [List.append_nil, ← hd]; exact hp
    | cons c s => simp at hk
  | succ k ih =>
    intro s p n m hk hp hd hu
    cases s with
    | nil => rw [digitsIn] at hd; injection hd with hd; rw [List.append_nil, ← hd]; exact hp
    | cons c s =>
      have one : ∀ (c : UInt8) (s p : Bytes) (i : Last), s.length ≤ k → digitsIn base n (c :: s) = some m → c ≠ 95 →
          usLoop (base == 16) i (c :: s) = true →
          (∀ v, IsDigitOf base c v → DigitText base p (n * base + v)) → DigitText base (p ++ s) m := by
        intro c s p i hk hd hc hu hp
        rw [digitsIn, if_neg hc] at hd
        cases hv : digitVal c with
        | none => rw [hv] at hd; exact absurd hd (by nofun)
        | some v =>
          rw [hv] at hd
          dsimp only at hd
          split at hd
          · rename_i hlt
            rw [usLoop_cons, (usStep_digit hb hv hlt i).2] at hu
            exact ih s p _ m hk (hp v ((digitVal_iff hb c v).mp ⟨hv, hlt⟩)) hd hu
          · exact absurd hd (by nofun)
      by_cases hc : c = 95
      · subst hc
        rw [digitsIn, if_pos rfl] at hd
        rw [usLoop_cons, usStep_under, if_pos rfl] at hu
        dsimp only at hu
        cases s with
        | nil => exact absurd hu (by simp [usLoop])
        | cons c s =>
          have hc : c ≠ 95 := by
            rintro rfl
            rw [usLoop_cons, usStep_under, if_neg (by decide)] at hu
            exact absurd hu (by nofun)
          have := one c s (p ++ [95, c]) .under (by simp only [List.length_cons] at hk; omega) hd hc hu fun v hv => .under hp hv
          rw [List.append_assoc] at this
          exact this
      · have := one c s (p ++ [c]) .digit (by simp only [List.length_cons] at hk; omega) hd hc hu fun v hv => .digit hp hv
        rw [List.append_assoc] at this
        exact this

/-- Reading a group of digits from the start. -/
theorem digitText_start {base : Nat} (hb : base ∈ [2, 8, 10, 16]) {c : UInt8} {s : Bytes} {m : Nat} {i : Last} (hc : c ≠ 95)
    (hd : digitsIn base 0 (c :: s) = some m) (hu : usLoop (base == 16) i (c :: s) = true) : DigitText base (c :: s) m := by
  rw [digitsIn, if_neg hc] at hd
  cases hv : digitVal c with
  | none => rw [hv] at hd; exact absurd hd (by nofun)
  | some v =>
    rw [hv] at hd
    dsimp only at hd
    split at hd
    · rename_i hlt
      rw [usLoop_cons, (usStep_digit hb hv hlt i).2] at hu
      rw [Nat.zero_mul, Nat.zero_add] at hd
      exact digitText_of hb _ s [c] v m le_rfl (.one ((digitVal_iff hb c v).mp ⟨hv, hlt⟩)) hd hu
    · exact absurd hd (by nofun)

/-- The digits of a number: the value and what `underscoreOK` sees. -/
theorem digitText_reads {base : Nat} (hb : base ∈ [2, 8, 10, 16]) {s : Bytes} {m : Nat} (h : DigitText base s m) :
    digitsIn base 0 s = some m ∧ (∀ i, s.foldl (usStep (base == 16)) (some i) = some .digit) ∧ s ≠ [] ∧ s.head? ≠ some 95 := by
  induction h with
  | @one c v h =>
    have h := (digitVal_iff hb c v).mpr h
    refine ⟨by rw [digitsIn_digit hb h.1 h.2, digitsIn, Nat.zero_mul, Nat.zero_add], fun i => ?_, by simp, ?_⟩
    · exact (usStep_digit hb h.1 h.2 i).2
    · rw [List.head?_cons]
      intro e
      injection e with e
      exact (usStep_digit hb h.1 h.2 .start).1 e
  | @digit s n c v hs h ih =>
    have h := (digitVal_iff hb c v).mpr h
    refine ⟨?_, fun i => ?_, by simp, ?_⟩
    · rw [digitsIn_append, ih.1, Option.bind_some, digitsIn_digit hb h.1 h.2, digitsIn]
    · rw [List.foldl_append, ih.2.1]
      exact (usStep_digit hb h.1 h.2 _).2
    · cases s with
      | nil => exact absurd rfl ih.2.2.1
      | cons a s => exact ih.2.2.2
  | @under s n c v hs h ih =>
    have h := (digitVal_iff hb c v).mpr h
    refine ⟨?_, fun i => ?_, by simp, ?_⟩
    · rw [digitsIn_append, ih.1, Option.bind_some, digitsIn, if_pos rfl, digitsIn_digit hb h.1 h.2, digitsIn]
    · rw [List.foldl_append, ih.2.1, List.foldl_cons, usStep_under, if_pos rfl]
      exact (usStep_digit hb h.1 h.2 _).2
    · cases s with
      | nil => exact absurd rfl ih.2.2.1
      | cons a s => exact ih.2.2.2

theorem usLoop_plain {base : Nat} (hb : base ∈ [2, 8, 10, 16]) : ∀ (s : Bytes) (n m : Nat) (i : Last), i ≠ .under →
    digitsIn base n s = some m → (95 : UInt8) ∉ s → usLoop (base == 16) i s = true := by
  intro s
  induction s with
  | nil =>
    intro n m i hi _ _
    cases i with
    | under => exact absurd rfl hi
    | start => rfl
    | digit => rfl
    | other => rfl
  | cons c s ih =>
    intro n m i hi hd hu
    rw [List.mem_cons, not_or] at hu
    rw [digitsIn, if_neg (fun e => hu.1 e.symm)] at hd
    cases hv : digitVal c with
    | none => rw [hv] at hd; exact absurd hd (by nofun)
    | some v =>
      rw [hv] at hd
      dsimp only at hd
      split at hd
      · rename_i hlt
        rw [usLoop_cons, (usStep_digit hb hv hlt i).2]
        exact ih _ m .digit (by decide) hd hu.2
      · exact absurd hd (by nofun)

theorem usLoop_digits {base : Nat} (hb : base ∈ [2, 8, 10, 16]) {s : Bytes} {m : Nat} (h : DigitText base s m) (i : Last) :
    usLoop (base == 16) i s = true := by
  rw [usLoop, (digitText_reads hb h).2.1]

theorem digits_sign_all : ∀ base ∈ [2, 8, 10, 16], ∀ c ∈ [(43 : UInt8), 45], digitVal c = none := by decide

theorem underscoreOK_cons {c : UInt8} {s : Bytes} (h : c ≠ 45 ∧ c ≠ 43) : underscoreOK (c :: s) = usBody (c :: s) := by
  rw [underscoreOK, if_neg (by rw [not_or]; exact h)]

theorem usBody_other {c : UInt8} {s : Bytes} (h : c ≠ 48) : usBody (c :: s) = usLoop false .start (c :: s) := by
  rw [usBody.eq_def]
  split
  · rename_i e
    injection e with e _
    exact absurd e h
  · rfl

theorem digitsIn_zero (s : Bytes) : digitsIn 8 0 (48 :: s) = digitsIn 8 0 s := by
  rw [digitsIn, if_neg (by decide)]
  rfl

/-- After the prefix of a base. -/
theorem based_of {base : Nat} (hb : base ∈ [2, 8, 10, 16]) {p s : Bytes} {n : Nat} (hp : BasePrefix p base) (hs : s ≠ [])
    (hd : digitsIn base 0 s = some n) (hu : (95 : UInt8) ∈ s → usLoop (base == 16) .digit s = true) : NatText (p ++ s) n := by
  have hu : usLoop (base == 16) .digit s = true := by
    by_cases h : (95 : UInt8) ∈ s
    · exact hu h
    · exact usLoop_plain hb s 0 n .digit (by decide) hd h
  cases s with
  | nil => exact absurd rfl hs
  | cons c s =>
    by_cases hc : c = 95
    · subst hc
      rw [digitsIn, if_pos rfl] at hd
      rw [usLoop_cons, usStep_under, if_pos rfl] at hu
      dsimp only at hu
      cases s with
      | nil => exact absurd hu (by simp [usLoop])
      | cons c s =>
        have hc : c ≠ 95 := by
          rintro rfl
          rw [usLoop_cons, usStep_under, if_neg (by decide)] at hu
          exact absurd hu (by nofun)
        exact .under hp (digitText_start hb hc hd hu)
    · exact .based hp (digitText_start hb hc hd hu)

theorem parseUint0_some {s : Bytes} {n : Nat} (h : parseUint0 s = some n) : NatText s n := by
  rw [parseUint0] at h
  cases hd : digits0 s with
  | none => rw [hd] at h; exact absurd h (by nofun)
  | some m =>
    rw [hd] at h
    dsimp only at h
    split at h
    · exact absurd h (by nofun)
    rename_i hu
    injection h with h
    subst h
    have hu : (95 : UInt8) ∈ s → underscoreOK s = true := by
      intro h
      cases e : underscoreOK s with
      | true => rfl
      | false => exact absurd ⟨h, e⟩ hu
    cases s with
    | nil => exact absurd hd (by nofun)
    | cons c s =>
      rw [digits0.eq_def] at hd
      dsimp only at hd
      by_cases hc : c = 48
      · subst hc
        rw [if_pos rfl] at hd
        rw [underscoreOK_cons (by decide)] at hu
        have octal : digitsIn 8 0 s = some m → ((95 : UInt8) ∈ (48 :: s) → usLoop false .start (48 :: s) = true) →
            NatText (48 :: s) m := by
          intro hd hu
          rw [← digitsIn_zero] at hd
          have hu : usLoop false .start (48 :: s) = true := by
            by_cases h : (95 : UInt8) ∈ 48 :: s
            · exact hu h
            · exact usLoop_plain (base := 8) (by decide) _ 0 m .start (by decide) hd h
          exact .octal (digitText_start (base := 8) (by decide) (by decide) hd hu) rfl
        cases s with
        | nil => exact octal hd hu
        | cons b s =>
          cases s with
          | nil =>
            refine octal hd fun h => ?_
            have hb : ∀ c ∈ [(98 : UInt8), 66, 111, 79, 120, 88], digitsIn 8 0 [c] = none := by decide
            have hn : b ∉ [(98 : UInt8), 66, 111, 79, 120, 88] := by
              intro hm
              rw [hb b hm] at hd
              exact absurd hd (by nofun)
            simp only [List.mem_cons, List.not_mem_nil, or_false, not_or] at hn
            have := hu h
            rw [usBody, if_neg (by simp [hn]), if_neg (by simp [hn])] at this
            exact this
          | cons d r =>
            have mem : (95 : UInt8) ∈ d :: r → (95 : UInt8) ∈ 48 :: b :: d :: r := fun h => by
              rw [List.mem_cons, List.mem_cons]; exact .inr (.inr h)
            rw [usBody] at hu
            dsimp only at hd
            by_cases h2 : b = 98 ∨ b = 66
            · rw [if_pos h2] at hd
              rw [if_pos (by rcases h2 with h | h <;> simp [h])] at hu
              exact based_of (base := 2) (p := [48, b]) (by decide) (.inl ⟨by rcases h2 with rfl | rfl <;> decide, rfl⟩) (by simp) hd
                fun h => hu (mem h)
            rw [if_neg h2] at hd
            by_cases h8 : b = 111 ∨ b = 79
            · rw [if_pos h8] at hd
              rw [if_pos (by rcases h8 with h | h <;> simp [h])] at hu
              exact based_of (base := 8) (p := [48, b]) (by decide)
                (.inr (.inl ⟨by rcases h8 with rfl | rfl <;> decide, rfl⟩)) (by simp) hd fun h => hu (mem h)
            rw [if_neg h8] at hd
            rw [not_or] at h2 h8
            rw [if_neg (by simp [h2, h8])] at hu
            by_cases h16 : b = 120 ∨ b = 88
            · rw [if_pos h16] at hd hu
              exact based_of (base := 16) (p := [48, b]) (by decide)
                (.inr (.inr ⟨by rcases h16 with rfl | rfl <;> decide, rfl⟩)) (by simp) hd fun h => hu (mem h)
            rw [if_neg h16] at hd hu
            exact octal hd hu
      · rw [if_neg hc] at hd
        have hsign : c ≠ 45 ∧ c ≠ 43 := by
          constructor <;> rintro rfl <;> exact absurd hd (by rw [digitsIn, if_neg (by decide)]; nofun)
        rw [underscoreOK_cons hsign, usBody_other hc] at hu
        have hu : usLoop false .start (c :: s) = true := by
          by_cases h : (95 : UInt8) ∈ c :: s
          · exact hu h
          · exact usLoop_plain (base := 10) (by decide) _ 0 m .start (by decide) hd h
        have h95 : c ≠ 95 := by
          rintro rfl
          rw [usLoop_cons, usStep_under, if_neg (by decide)] at hu
          exact absurd hu (by nofun)
        refine .decimal (digitText_start (base := 10) (by decide) h95 hd hu) ?_
        rw [List.head?_cons]
        intro e
        injection e with e
        exact hc e

theorem parseUint0_intro {s : Bytes} {n : Nat} (hd : digits0 s = some n) (hu : underscoreOK s = true) : parseUint0 s = some n := by
  rw [parseUint0, hd]
  dsimp only
  rw [if_neg]
  rintro ⟨_, h⟩
  rw [hu] at h
  exact absurd h (by nofun)

theorem digit_sign {base : Nat} (hb : base ∈ [2, 8, 10, 16]) {c : UInt8} {s : Bytes} {n : Nat} (h : DigitText base (c :: s) n) :
    c ≠ 45 ∧ c ≠ 43 := by
  have hd := (digitText_reads hb h).1
  constructor <;> rintro rfl <;> exact absurd hd (by rw [digitsIn, if_neg (by decide)]; nofun)

theorem parseUint0_based {p s : Bytes} {base n : Nat} (hp : BasePrefix p base) (hs : s ≠ []) (hd : digitsIn base 0 s = some n)
    (hu : usLoop (base == 16) .digit s = true) : parseUint0 (p ++ s) = some n := by
  cases s with
  | nil => exact absurd rfl hs
  | cons d r =>
    rcases hp with ⟨rfl | rfl, rfl⟩ | ⟨rfl | rfl, rfl⟩ | ⟨rfl | rfl, rfl⟩ <;> exact parseUint0_intro hd hu

theorem parseUint0_of {s : Bytes} {n : Nat} (h : NatText s n) : parseUint0 s = some n := by
  have step : ∀ {p s base n}, BasePrefix p base → DigitText base s n → ∃ c r, s = c :: r ∧ base ∈ [2, 8, 10, 16] := by
    intro p s base n hp h
    have hb : base ∈ [2, 8, 10, 16] := by
      rcases hp with ⟨_, rfl⟩ | ⟨_, rfl⟩ | ⟨_, rfl⟩ <;> decide
    cases s with
    | nil => exact absurd rfl (digitText_reads hb h).2.2.1
    | cons c r => exact ⟨c, r, rfl, hb⟩
  cases h with
  | decimal h h0 =>
    cases s with
    | nil => exact absurd rfl (digitText_reads (base := 10) (by decide) h).2.2.1
    | cons c s =>
      have hc : c ≠ 48 := fun e => h0 (by rw [e]; rfl)
      refine parseUint0_intro ?_ ?_
      · rw [digits0.eq_def]
        dsimp only
        rw [if_neg hc]
        exact (digitText_reads (base := 10) (by decide) h).1
      · rw [underscoreOK_cons (digit_sign (base := 10) (by decide) h), usBody_other hc]
        exact usLoop_digits (base := 10) (by decide) h .start
  | octal h h0 =>
    cases s with
    | nil => exact absurd h0 (by nofun)
    | cons c s =>
      rw [List.head?_cons] at h0
      injection h0 with h0
      subst h0
      have hd := (digitText_reads (base := 8) (by decide) h).1
      have hu := usLoop_digits (base := 8) (by decide) h .start
      rw [digitsIn_zero] at hd
      have hb : ∀ c ∈ [(98 : UInt8), 66, 111, 79, 120, 88], digitVal c = none ∨ ∃ v, digitVal c = some v ∧ ¬ v < 8 := by
        decide +kernel
      cases s with
      | nil => exact parseUint0_intro hd hu
      | cons b r =>
        have hn : b ∉ [(98 : UInt8), 66, 111, 79, 120, 88] := by
          intro hm
          have h95 : b ≠ 95 := by rintro rfl; exact absurd hm (by decide)
          rw [digitsIn, if_neg h95] at hd
          rcases hb b hm with e | ⟨v, e, hv⟩
          · rw [e] at hd; exact absurd hd (by nofun)
          · rw [e] at hd
            dsimp only at hd
            rw [if_neg hv] at hd
            exact absurd hd (by nofun)
        simp only [List.mem_cons, List.not_mem_nil, or_false, not_or] at hn
        refine parseUint0_intro ?_ ?_
        · rw [digits0.eq_def]
          dsimp only
          rw [if_pos rfl]
          cases r with
          | nil => exact hd
          | cons d r =>
            dsimp only
            rw [if_neg (by simp [hn]), if_neg (by simp [hn]), if_neg (by simp [hn])]
            exact hd
        · rw [underscoreOK_cons (by decide), usBody, if_neg (by simp [hn]), if_neg (by simp [hn])]
          exact hu
  | based hp h =>
    obtain ⟨c, r, rfl, hb⟩ := step hp h
    exact parseUint0_based hp (by simp) (digitText_reads hb h).1 (usLoop_digits hb h .digit)
  | under hp h =>
    obtain ⟨c, r, rfl, hb⟩ := step hp h
    refine parseUint0_based hp (by simp) ?_ ?_
    · rw [digitsIn, if_pos rfl]
      exact (digitText_reads hb h).1
    · rw [usLoop_cons, usStep_under, if_pos rfl]
      exact usLoop_digits hb h .under

theorem natText_head {s : Bytes} {n : Nat} (h : NatText s n) : ∃ c r, s = c :: r ∧ c ≠ 45 ∧ c ≠ 43 := by
  cases h with
  | decimal h h0 =>
    cases s with
    | nil => exact absurd rfl (digitText_reads (base := 10) (by decide) h).2.2.1
    | cons c s => exact ⟨c, s, rfl, digit_sign (base := 10) (by decide) h⟩
  | octal h h0 =>
    cases s with
    | nil => exact absurd h0 (by nofun)
    | cons c s => exact ⟨c, s, rfl, digit_sign (base := 8) (by decide) h⟩
  | based hp h =>
    rcases hp with ⟨rfl | rfl, rfl⟩ | ⟨rfl | rfl, rfl⟩ | ⟨rfl | rfl, rfl⟩ <;> exact ⟨48, _, rfl, by decide⟩
  | under hp h =>
    rcases hp with ⟨rfl | rfl, rfl⟩ | ⟨rfl | rfl, rfl⟩ | ⟨rfl | rfl, rfl⟩ <;> exact ⟨48, _, rfl, by decide⟩

theorem natText_iff (s : Bytes) (n : Nat) : parseUint0 s = some n ↔ NatText s n := ⟨parseUint0_some, parseUint0_of⟩

/-- **C96.** A flag of type int accepts exactly the integer literals of Go that fit in 64 bits, and takes their value:
    decimal, octal after `0` or `0o`, hexadecimal after `0x`, binary after `0b`, single underscores between digits
    or after the prefix, an optional sign. -/
theorem int_flag_iff (s : Bytes) (i : Int) : parseInt0 s = some i ↔ IntText s i := by
  have e : maxInt = 9223372036854775807 := rfl
  have e2 : (2 : Nat) ^ 63 = 9223372036854775808 := by decide
  constructor
  · intro h
    cases s with
    | nil => exact absurd h (by nofun)
    | cons c s =>
      rw [parseInt0] at h
      split at h
      · rename_i hc
        subst hc
        cases hn : parseUint0 s with
        | none => rw [hn] at h; exact absurd h (by nofun)
        | some n =>
          rw [hn] at h
          dsimp only at h
          split at h
          · rename_i hle
            injection h with h
            rw [← h]
            exact .minus ((natText_iff s n).mp hn) (by omega)
          · exact absurd h (by nofun)
      · split at h
        · exact absurd h (by nofun)
        · rename_i n hn
          split at h
          · rename_i hle
            injection h with h
            rw [← h]
            split at hn
            · rename_i hc
              subst hc
              exact .plus ((natText_iff _ n).mp hn) (by omega)
            · exact .plain ((natText_iff _ n).mp hn) (by omega)
          · exact absurd h (by nofun)
  · intro h
    cases h with
    | @plain s n h hn =>
      obtain ⟨c, r, rfl, h1, h2⟩ := natText_head h
      rw [parseInt0, if_neg h1, if_neg h2, (natText_iff _ n).mpr h]
      dsimp only
      rw [if_pos (by omega)]
    | @plus s n h hn =>
      rw [parseInt0, if_neg (by decide), if_pos rfl, (natText_iff _ n).mpr h]
      dsimp only
      rw [if_pos (by omega)]
    | @minus s n h hn =>
      rw [parseInt0, if_pos rfl, (natText_iff _ n).mpr h]
      dsimp only
      rw [if_pos (by omega)]

/-- **C96.** A text stands for one integer at most. -/
theorem intText_unique {s : Bytes} {i j : Int} (hi : IntText s i) (hj : IntText s j) : i = j := by
  have := ((int_flag_iff s i).mpr hi).symm.trans ((int_flag_iff s j).mpr hj)
  injection this

/-- Concrete texts: accepted … -/
example : (["0", "007", "0x1F", "0o17", "0b101", "1_000_000", "0x_ff", "-12", "+3", "-9223372036854775808"].map fun s =>
    parseInt0 (ascii s)) = [some 0, some 7, some 31, some 15, some 5, some 1000000, some 255, some (-12), some 3,
      some (-9223372036854775808)] := by decide +kernel

/-- … and rejected. -/
example : ∀ s ∈ ["", "-", "08", "0x", "0b2", "1__0", "_1", "1_", "0_", "1 ", "1.5", "9223372036854775808",
    "-9223372036854775809", "--1"], parseInt0 (ascii s) = none := by decide +kernel

example : IntText (ascii "-0x_F_f") (-255) := (int_flag_iff _ _).mp (by decide +kernel)

end Flag
end StlDice
