import Verif.Model.Flag
import Verif.Lemmas.Names

/-! # Reading back what the package flag reads -/

namespace StlDice
namespace Flag

theorem digitsIn_ten : ∀ (ds : Bytes) (n : Nat), (∀ c ∈ ds, isDigit c = true) →
    digitsIn 10 n ds = some (ds.foldl (fun n d => n * 10 + (d.toNat - 48)) n) := by
  intro ds
  induction ds with
  | nil => intro n _; rfl
  | cons c cs ih =>
    intro n h
    have hc := h c (by simp)
    have h1 : (48 : UInt8) ≤ c ∧ c ≤ 57 := by
      unfold isDigit at hc
      rw [Bool.and_eq_true, decide_eq_true_eq, decide_eq_true_eq] at hc
      exact ⟨UInt8.le_iff_toNat_le.mpr hc.1, UInt8.le_iff_toNat_le.mpr hc.2⟩
    have hd : digitVal c = some (c.toNat - 48) := by
      unfold digitVal
      rw [if_pos h1]
    have h2 : c.toNat - 48 < 10 := by
      have := UInt8.le_iff_toNat_le.mp h1.2
      have e : (57 : UInt8).toNat = 57 := rfl
      omega
    have h95 : c ≠ 95 := by
      rintro rfl
      exact absurd h1 (by decide)
    rw [digitsIn, if_neg h95, hd]
    dsimp only
    rw [if_pos h2, ih _ fun c hc => h c (by simp [hc])]
    rfl

/-- The first digit printed is not zero, but for the number zero. -/
theorem natDigitsRev_last : ∀ (fuel n : Nat), n < fuel → 0 < n → ∀ d, (natDigitsRev fuel n).getLast? = some d → d ≠ 48 := by
  intro fuel
  induction fuel with
  | zero => intro n h; omega
  | succ fuel ih =>
    intro n h h0 d hd
    unfold natDigitsRev at hd
    split at hd
    · rename_i h10
      rw [List.getLast?_singleton] at hd
      injection hd with hd
      rw [← hd]
      intro e
      have := congrArg UInt8.toNat e
      rw [toNat_ofNat_digit h10] at this
      have e48 : (48 : UInt8).toNat = 48 := rfl
      omega
    · rename_i h10
      have hne : natDigitsRev fuel (n / 10) ≠ [] := by
        have := fmtNat_ne_nil (n / 10)
        cases fuel with
        | zero => omega
        | succ fuel =>
          unfold natDigitsRev
          split <;> exact List.cons_ne_nil _ _
      rw [List.getLast?_cons_of_ne_nil hne] at hd
      exact ih (n / 10) (by omega) (by omega) d hd

theorem fmtNat_head {n : Nat} (h : 0 < n) {c : UInt8} {s : Bytes} (he : fmtNat n = c :: s) : c ≠ 48 := by
  refine natDigitsRev_last (n + 1) n (by omega) h c ?_
  have : (fmtNat n).head? = some c := by rw [he]; rfl
  unfold fmtNat at this
  rwa [List.head?_reverse] at this

theorem digits0_fmtNat (n : Nat) : digits0 (fmtNat n) = some n := by
  by_cases h : n = 0
  · subst h; decide
  cases he : fmtNat n with
  | nil => exact absurd he (fmtNat_ne_nil n)
  | cons c s =>
    rw [digits0.eq_def]
    dsimp only
    rw [if_neg (fmtNat_head (by omega) he), ← he, digitsIn_ten _ _ (fmtNat_digits n)]
    exact congrArg some (fmtNat_val n)

theorem parseUint0_fmtNat (n : Nat) : parseUint0 (fmtNat n) = some n := by
  rw [parseUint0, digits0_fmtNat]
  dsimp only
  rw [if_neg]
  rintro ⟨h, _⟩
  exact absurd (fmtNat_digits n _ h) (by decide)

/-- A number printed with `%v` is read back by a flag of type int. -/
theorem parseInt0_fmtInt {i : Int} (h : -(maxInt + 1 : Int) ≤ i ∧ i ≤ maxInt) : parseInt0 (fmtInt i) = some i := by
  cases i with
  | ofNat n =>
    have h' : n ≤ maxInt := by have := h.2; simp only [Int.ofNat_eq_natCast] at this; omega
    show parseInt0 (fmtNat n) = _
    cases he : fmtNat n with
    | nil => exact absurd he (fmtNat_ne_nil n)
    | cons c s =>
      have hc : isDigit c = true := fmtNat_digits n c (by rw [he]; simp)
      have h1 : c ≠ 45 := by rintro rfl; revert hc; decide
      have h2 : c ≠ 43 := by rintro rfl; revert hc; decide
      rw [parseInt0, if_neg h1, if_neg h2, ← he, parseUint0_fmtNat]
      dsimp only
      rw [if_pos h']
      rfl
  | negSucc n =>
    have h' : n + 1 ≤ maxInt + 1 := by have := h.1; rw [Int.negSucc_eq] at this; omega
    show parseInt0 (45 :: fmtNat (n + 1)) = _
    rw [parseInt0, if_pos rfl, parseUint0_fmtNat]
    dsimp only
    rw [if_pos h', Int.negSucc_eq]
    push_cast
    rfl

/-! ## One flag with its value in the next argument -/

theorem splitEq_none : ∀ s : Bytes, (61 : UInt8) ∉ s → splitEq s = (s, none) := by
  intro s
  induction s with
  | nil => intro _; rfl
  | cons c s ih =>
    intro h
    rw [List.mem_cons, not_or] at h
    rw [splitEq, if_neg (fun e => h.1 e.symm), ih h.2]

/-- A name that can be that of a flag. -/
def IsName (name : Bytes) : Prop := name ≠ [] ∧ name.head? ≠ some 45 ∧ (61 : UInt8) ∉ name

instance (name : Bytes) : Decidable (IsName name) := by unfold IsName; infer_instance

theorem word_flag {name : Bytes} (h : IsName name) : word (45 :: name) = .flag name none := by
  obtain ⟨h0, h1, h2⟩ := h
  cases name with
  | nil => exact absurd rfl h0
  | cons c s =>
    have hc : c ≠ 45 := fun e => h1 (by rw [e]; rfl)
    rw [List.mem_cons, not_or] at h2
    have hc2 : c ≠ 61 := fun e => h2.1 e.symm
    rw [word.eq_def]
    dsimp only
    rw [if_neg (by simp), if_neg hc, nameWord, if_neg (by simp [hc, hc2]), splitEq_none s h2.2]

theorem parse_value {kind : Bytes → Option Kind} {float : Bytes → Bool} {name v : Bytes} {k : Kind} (h : IsName name)
    (hk : kind name = some k) (hb : k ≠ .bool) (hv : valid float k v = true) (rest : List Bytes) :
    parse kind float ((45 :: name) :: v :: rest) = (parse kind float rest).after (name, v) := by
  rw [parse.eq_def]
  dsimp only
  rw [word_flag h]
  dsimp only
  rw [hk]
  cases k with
  | bool => exact absurd rfl hb
  | int => dsimp only; rw [if_pos hv]
  | float => dsimp only; rw [if_pos hv]
  | str => dsimp only; rw [if_pos hv]

/-- An argument that does not look like a flag: not `-` with more after it. -/
def NotFlag (s : Bytes) : Prop := s.head? ≠ some 45 ∨ s.length < 2

theorem word_arg {s : Bytes} (h : NotFlag s) : word s = .arg := by
  cases s with
  | nil => rfl
  | cons c s =>
    rw [word.eq_def]
    dsimp only
    split
    · rfl
    · rename_i hc
      rw [not_not] at hc
      cases s with
      | nil => rfl
      | cons c2 r =>
        rcases h with h | h
        · exact absurd (by rw [hc]; rfl) h
        · simp only [List.length_cons] at h; omega

theorem word_not_arg {s : Bytes} (h : ¬ NotFlag s) : word s ≠ .arg := by
  unfold NotFlag at h
  push Not at h
  cases s with
  | nil => simp at h
  | cons c s =>
    have hc : c = 45 := by
      have := h.1
      rw [List.head?_cons] at this
      injection this
    subst hc
    cases s with
    | nil => simp at h
    | cons c2 r =>
      rw [word.eq_def]
      dsimp only
      rw [if_neg (by simp)]
      have hn : ∀ c s, nameWord (c :: s) ≠ .arg := by
        intro c s
        rw [nameWord]
        split <;> exact fun h => nomatch h
      split
      · cases r with
        | nil => exact fun h => nomatch h
        | cons c3 r => exact hn _ _
      · exact hn _ _

theorem parse_args {kind : Bytes → Option Kind} {float : Bytes → Bool} {l : List Bytes} (h : ∀ s, l.head? = some s → NotFlag s) :
    parse kind float l = .ok [] l := by
  cases l with
  | nil => rw [parse]
  | cons s l =>
    rw [parse.eq_def]
    dsimp only
    rw [word_arg (h s rfl)]

end Flag
end StlDice
