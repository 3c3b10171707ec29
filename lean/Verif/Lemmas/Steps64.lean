import Verif.Spec.CutDice
import Mathlib.Tactic.Ring

/-! # The loops of voxcut-dice without and with the bounds of 64-bit integers -/

namespace StlDice
open Spec

theorem wrap64_small {x : Int} (h : -(2 ^ 63) ≤ x) (h' : x < 2 ^ 63) : wrap64 x = x := by
  unfold wrap64
  rw [Int.bmod_def]
  split <;> omega

theorem wrap64_range (x : Int) : -(2 ^ 63) ≤ wrap64 x ∧ wrap64 x < 2 ^ 63 := by
  have h1 := Int.le_bmod (x := x) (m := 18446744073709551616) (by decide)
  have h2 := Int.bmod_lt (x := x) (m := 18446744073709551616) (by decide)
  unfold wrap64
  omega

/-- `stepLoop` with unbounded integers. -/
def stepLoopU (n size : Int) : Nat → Int → Option (List Int)
  | 0, _ => none
  | fuel + 1, i => if i < n then (stepLoopU n size fuel (i + size)).map (i :: ·) else some []

theorem stepLoop_unbounded {n size : Int} (hs : 1 ≤ size) (hf : StepsFit n size) : ∀ (fuel : Nat) (i : Int), 0 ≤ i → size ∣ i →
    stepLoop n size fuel i = stepLoopU n size fuel i := by
  intro fuel
  induction fuel with
  | zero => intro i _ _; rfl
  | succ fuel ih =>
    intro i h0 hd
    unfold stepLoop stepLoopU
    by_cases hi : i < n
    · have := hf i h0 hi hd
      rw [if_pos hi, if_pos hi, wrap64_small (by omega) this, ih _ (by omega) (dvd_add hd (dvd_refl _))]
    · rw [if_neg hi, if_neg hi]

theorem stepLoop_unbounded0 {n size : Int} (hs : 1 ≤ size) (hf : StepsFit n size) (fuel : Nat) :
    stepLoop n size fuel 0 = stepLoopU n size fuel 0 := stepLoop_unbounded hs hf fuel 0 (le_refl _) (dvd_zero _)

/-- A simple case in which the steps fit. -/
theorem stepsFit_of_le {n size : Int} (h : n + size ≤ 2 ^ 63) : StepsFit n size := by
  intro q _ h2 _
  omega

theorem tilesFit_of_le {nx ny nz size : Int} (hx : nx + size ≤ 2 ^ 63) (hy : ny + size ≤ 2 ^ 63) (hz : nz + size ≤ 2 ^ 63) :
    TilesFit nx ny nz size := ⟨stepsFit_of_le hx, stepsFit_of_le hy, stepsFit_of_le hz⟩

/-- `diceStarts` with unbounded integers. -/
def diceStartsU (fuel : Nat) (nx ny nz size : Int) : Option (List Key) :=
  match stepLoopU nz size fuel 0 with
  | none => none
  | some [] => some []
  | some zs =>
    match stepLoopU ny size fuel 0 with
    | none => none
    | some [] => some []
    | some ys =>
      match stepLoopU nx size fuel 0 with
      | none => none
      | some xs =>
        some (zs.flatMap fun zi => ys.flatMap fun yi => xs.map fun xi => ⟨xi, yi, zi⟩)

theorem diceStarts_unbounded {nx ny nz size : Int} (hs : 1 ≤ size) (hf : TilesFit nx ny nz size) (fuel : Nat) :
    diceStarts fuel nx ny nz size = diceStartsU fuel nx ny nz size := by
  unfold diceStarts diceStartsU
  rw [stepLoop_unbounded0 hs hf.1, stepLoop_unbounded0 hs hf.2.1, stepLoop_unbounded0 hs hf.2.2]
  generalize stepLoopU nz size fuel 0 = a
  generalize stepLoopU ny size fuel 0 = b
  generalize stepLoopU nx size fuel 0 = c
  rcases a with _ | _ | ⟨z, zs⟩ <;> rcases b with _ | _ | ⟨y, ys⟩ <;> cases c <;> rfl

end StlDice
