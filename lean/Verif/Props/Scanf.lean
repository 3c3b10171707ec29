import Verif.Props.SvxBack

/-! # C47: which numbers svx2stl reads from the names of the slices -/

namespace StlDice
namespace Spec

/-- The number `v` is written in `name` according to the format `pre%Nd` followed by `post`: after `pre` an
    optional sign and at least one digit, together at most `N` bytes, as many digits as fit, then `post` and
    anything. -/
def NumberAt (pre : Bytes) (width : Nat) (post name : Bytes) (v : Int) : Prop :=
  ∃ sign ds rest : Bytes, name = pre ++ sign ++ ds ++ post ++ rest ∧ ds ≠ [] ∧
    (∀ c ∈ ds, isDigit c = true) ∧ sign.length + ds.length ≤ width ∧
    (sign.length + ds.length < width → ∀ c r, post ++ rest = c :: r → isDigit c = false) ∧
    ((sign = [] ∨ sign = ascii "+") ∧ v = digitsVal ds ∨ sign = ascii "-" ∧ v = -(digitsVal ds : Int))

end Spec

theorem takeDigits_iff (w : Nat) (s ds r : Bytes) : takeDigits w s = (ds, r) ↔
    s = ds ++ r ∧ (∀ c ∈ ds, isDigit c = true) ∧ ds.length ≤ w ∧
      (ds.length < w → ∀ c r', r = c :: r' → isDigit c = false) := by
  induction w generalizing s ds with
  | zero =>
    unfold takeDigits
    constructor
    · intro h
      injection h with h1 h2
      subst h1 h2
      exact ⟨rfl, fun c hc => (List.not_mem_nil hc).elim, Nat.le_refl _, fun h => absurd h (Nat.lt_irrefl _)⟩
    · rintro ⟨h1, _, h3, _⟩
      have : ds = [] := List.length_eq_zero_iff.mp (Nat.le_zero.mp h3)
      subst this
      rw [h1]
      rfl
  | succ w ih =>
    cases s with
    | nil =>
      unfold takeDigits
      constructor
      · intro h
        injection h with h1 h2
        subst h1 h2
        exact ⟨rfl, fun c hc => (List.not_mem_nil hc).elim, Nat.zero_le _, fun _ c r' h => nomatch h⟩
      · rintro ⟨h1, _⟩
        obtain ⟨rfl, rfl⟩ := List.append_eq_nil_iff.mp h1.symm
        rfl
    | cons c s =>
      unfold takeDigits
      by_cases hc : isDigit c = true
      · rw [if_pos hc]
        constructor
        · intro h
          injection h with h1 h2
          obtain ⟨i1, i2, i3, i4⟩ := (ih s (takeDigits w s).1).mp (by rw [← h2])
          subst h1
          refine ⟨by rw [List.cons_append, ← i1], ?_, by rw [List.length_cons]; omega, ?_⟩
          · intro d hd
            rcases List.mem_cons.mp hd with rfl | hd
            · exact hc
            · exact i2 d hd
          · intro hl
            rw [List.length_cons] at hl
            exact i4 (by omega)
        · rintro ⟨h1, h2, h3, h4⟩
          cases ds with
          | nil =>
            have := h4 (by simp) c s h1.symm
            rw [hc] at this
            cases this
          | cons d ds =>
            injection h1 with e1 e2
            subst e1
            have := (ih s ds).mpr ⟨e2, fun x hx => h2 x (List.mem_cons_of_mem _ hx),
              by rw [List.length_cons] at h3; omega, fun hl => h4 (by rw [List.length_cons]; omega)⟩
            rw [this]
      · rw [if_neg hc]
        constructor
        · intro h
          injection h with h1 h2
          subst h1 h2
          refine ⟨rfl, fun c hc => (List.not_mem_nil hc).elim, Nat.zero_le _, ?_⟩
          intro _ c' r' h
          injection h with h _
          subst h
          simpa using hc
        · rintro ⟨h1, h2, _, _⟩
          cases ds with
          | nil => rw [h1]; rfl
          | cons d ds =>
            injection h1 with e1 _
            exact absurd (h2 c (by rw [e1]; simp)) hc

theorem scanDigits_iff (w : Nat) (post s : Bytes) (n : Nat) : scanDigits w post s = some n ↔
    ∃ ds rest, s = ds ++ post ++ rest ∧ ds ≠ [] ∧ (∀ c ∈ ds, isDigit c = true) ∧ ds.length ≤ w ∧
      (ds.length < w → ∀ c r, post ++ rest = c :: r → isDigit c = false) ∧ n = digitsVal ds := by
  constructor
  · intro h
    unfold scanDigits at h
    generalize ht : takeDigits w s = p at h
    obtain ⟨ds, r⟩ := p
    cases ds with
    | nil => cases h
    | cons c ds =>
      dsimp only at h
      obtain ⟨t1, t2, t3, t4⟩ := (takeDigits_iff _ _ _ _).mp ht
      cases hp : stripPrefix post r with
      | none => rw [hp] at h; cases h
      | some rest =>
        rw [hp] at h
        injection h with h
        have := stripPrefix_some hp
        subst this
        exact ⟨c :: ds, rest, by rw [t1, List.append_assoc], by simp, t2, t3, t4, h.symm⟩
  · rintro ⟨ds, rest, h1, h2, h3, h4, h5, rfl⟩
    have := (takeDigits_iff w s ds (post ++ rest)).mpr ⟨by rw [h1, List.append_assoc], h3, h4, h5⟩
    unfold scanDigits
    rw [this]
    cases ds with
    | nil => exact absurd rfl h2
    | cons c ds =>
      dsimp only
      rw [stripPrefix_append]

/-- **C47.** svx2stl takes the number of a slice from the name of its file exactly as the format in the
    manifest says. -/
theorem sscanf_iff (f : SliceFmt) (name : Bytes) (v : Int) :
    sscanf f name = some v ↔ Spec.NumberAt f.pre f.width f.post name v := by
  have ep : ascii "+" = [43] := by decide
  have em : ascii "-" = [45] := by decide
  unfold Spec.NumberAt
  constructor
  · intro h
    unfold sscanf at h
    cases hp : stripPrefix f.pre name with
    | none => rw [hp] at h; cases h
    | some s =>
      rw [hp] at h
      have hn := stripPrefix_some hp
      cases s with
      | nil => cases h
      | cons c r =>
        dsimp only at h
        have signed : ∀ {n : Nat}, scanDigits (f.width - 1) f.post r = some n → ∃ ds rest : Bytes,
            name = f.pre ++ [c] ++ ds ++ f.post ++ rest ∧ ds ≠ [] ∧ (∀ c ∈ ds, isDigit c = true) ∧
            1 + ds.length ≤ f.width ∧
            (1 + ds.length < f.width → ∀ c r, f.post ++ rest = c :: r → isDigit c = false) ∧ n = digitsVal ds := by
          intro n hs
          obtain ⟨ds, rest, e1, e2, e3, e4, e5, e6⟩ := (scanDigits_iff _ _ _ _).mp hs
          have := List.length_pos_iff.mpr e2
          refine ⟨ds, rest, by rw [hn, e1]; simp, e2, e3, by omega, fun hl => e5 (by omega), e6⟩
        by_cases h43 : c = 43
        · rw [if_pos h43] at h
          cases hs : scanDigits (f.width - 1) f.post r with
          | none => rw [hs] at h; cases h
          | some n =>
            rw [hs] at h
            injection h with h
            obtain ⟨ds, rest, e1, e2, e3, e4, e5, e6⟩ := signed hs
            exact ⟨[c], ds, rest, e1, e2, e3, e4, e5, Or.inl ⟨Or.inr (by rw [ep, h43]), by rw [← h, e6]⟩⟩
        · rw [if_neg h43] at h
          by_cases h45 : c = 45
          · rw [if_pos h45] at h
            cases hs : scanDigits (f.width - 1) f.post r with
            | none => rw [hs] at h; cases h
            | some n =>
              rw [hs] at h
              injection h with h
              obtain ⟨ds, rest, e1, e2, e3, e4, e5, e6⟩ := signed hs
              exact ⟨[c], ds, rest, e1, e2, e3, e4, e5, Or.inr ⟨by rw [em, h45], by rw [← h, e6]⟩⟩
          · rw [if_neg h45] at h
            cases hs : scanDigits f.width f.post (c :: r) with
            | none => rw [hs] at h; cases h
            | some n =>
              rw [hs] at h
              injection h with h
              obtain ⟨ds, rest, e1, e2, e3, e4, e5, e6⟩ := (scanDigits_iff _ _ _ _).mp hs
              exact ⟨[], ds, rest, by rw [hn, e1]; simp, e2, e3, by simpa using e4, fun hl => e5 (by simpa using hl),
                Or.inl ⟨Or.inl rfl, by rw [← h, e6]⟩⟩
  · rintro ⟨sign, ds, rest, rfl, h2, h3, h4, h5, h6⟩
    unfold sscanf
    rw [show f.pre ++ sign ++ ds ++ f.post ++ rest = f.pre ++ (sign ++ (ds ++ f.post ++ rest)) by simp,
      stripPrefix_append]
    rcases h6 with ⟨rfl | rfl, rfl⟩ | ⟨rfl, rfl⟩
    · rw [List.nil_append]
      cases ds with
      | nil => exact absurd rfl h2
      | cons c ds =>
        rw [List.cons_append, List.cons_append]
        dsimp only
        have hc := h3 c (by simp)
        have h43 : c ≠ 43 := by rintro rfl; revert hc; decide
        have h45 : c ≠ 45 := by rintro rfl; revert hc; decide
        rw [if_neg h43, if_neg h45, (scanDigits_iff f.width f.post (c :: (ds ++ f.post ++ rest)) _).mpr
          ⟨c :: ds, rest, rfl, h2, h3, by simpa using h4, fun hl => h5 (by simpa using hl), rfl⟩]
        rfl
    · rw [ep] at h4 h5 ⊢
      have e1 : ([43] : Bytes).length = 1 := rfl
      rw [e1] at h4 h5
      have hs := (scanDigits_iff (f.width - 1) f.post (ds ++ f.post ++ rest) _).mpr
        ⟨ds, rest, rfl, h2, h3, by omega, fun hl => h5 (by omega), rfl⟩
      rw [List.singleton_append]
      dsimp only
      rw [if_pos rfl, hs]
      rfl
    · rw [em] at h4 h5 ⊢
      have e1 : ([45] : Bytes).length = 1 := rfl
      rw [e1] at h4 h5
      have hs := (scanDigits_iff (f.width - 1) f.post (ds ++ f.post ++ rest) _).mpr
        ⟨ds, rest, rfl, h2, h3, by omega, fun hl => h5 (by omega), rfl⟩
      rw [List.singleton_append]
      dsimp only
      rw [if_neg (by decide), if_pos rfl, hs]
      rfl

/-- The sign counts for the width: with `%04d` the name `slice+0123` would be cut after `+012`. -/
example : sscanf ⟨ascii "slice", 4, ascii ".png"⟩ (ascii "slice+012.png") = some 12 ∧
    sscanf ⟨ascii "slice", 4, ascii ".png"⟩ (ascii "slice-012.png") = some (-12) ∧
    sscanf ⟨ascii "slice", 4, ascii ".png"⟩ (ascii "slice+0123.png") = none ∧
    sscanf ⟨ascii "slice", 4, ascii ".png"⟩ (ascii "slice0123.png") = some 123 := by
  decide +kernel

/-- **C47.** The number does not depend on what follows the name: `slice0007.png.bak` is slice 7 too. -/
theorem sscanf_ignores_rest (f : SliceFmt) (name rest : Bytes) (v : Int) (hp : f.post ≠ [])
    (h : sscanf f name = some v) : sscanf f (name ++ rest) = some v := by
  rw [sscanf_iff] at h ⊢
  obtain ⟨sign, ds, r, rfl, h2, h3, h4, h5, h6⟩ := h
  refine ⟨sign, ds, r ++ rest, by simp, h2, h3, h4, ?_, h6⟩
  intro hl c r' e
  obtain ⟨p, ps, hps⟩ := List.exists_cons_of_ne_nil hp
  have h5 := h5 hl p (ps ++ r) (by rw [hps]; rfl)
  rw [hps] at e
  injection e with e _
  rw [← e]
  exact h5

/-- `sscanf_ignores_rest` on `slice0007.png.bak`. -/
example : sscanf ⟨ascii "slice", 4, ascii ".png"⟩ (ascii "slice0007.png" ++ ascii ".bak") = some 7 :=
  sscanf_ignores_rest _ _ _ 7 (by decide) (by decide +kernel)

end StlDice
