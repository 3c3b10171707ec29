import Verif.Props.CutDiceRun

/-! # C79: voxcut-dice with a size that is not positive, or too large -/

namespace StlDice
namespace Cmd
open Spec BinVOX
variable {F : Type} [GoFloat F] [FloatText F]

theorem diceLoop_zero_size {step : Disk → Key → Disk → Exit → Prop} {nx ny nz : Int}
    {zi yi xi : Int} {d d' : Disk} {e : Exit} (h : DiceLoop step nx ny nz 0 zi yi xi d d' e) :
    zi < nz → yi < ny → xi = 0 → 0 < nx → e = .fatal := by
  induction h with
  | endZ hz => intro h; exact absurd h hz
  | endY _ hy _ _ => intro _ h; exact absurd h hy
  | endX _ _ hx _ _ => intro _ _ h h'; rw [h] at hx; exact absurd h' hx
  | fails => intro _ _ _ _; rfl
  | tile hz hy hx _ _ ih => intro _ _ h h'; subst h; exact ih hz hy rfl h'

/-- **C79.** With a size of zero (and a model that is not empty) voxcut-dice never ends well,
    neither in a dry run nor otherwise. -/
theorem cut_dice_zero_size {float : Bytes → Bool} {lib : GL F} {d d' : Disk} {args : List Bytes} {out : Bytes} {dry : Bool}
    {fl : CutDiceFlags} {b : BinVOX F} (ha : cutDiceFlags args = some (dry, fl)) (hs : fl.size = 0)
    (hb : cutDiceBase (F := F) d fl = some b) (hd : 0 < b.NX ∧ 0 < b.NY ∧ 0 < b.NZ) :
    ¬ CutDiceProc (F := F) float lib d args out d' .done := by
  intro h
  generalize he : Exit.done = e at h
  cases h with
  | usage h => rw [cutDiceFlags_exit h] at ha; cases ha
  | refused h hb => cases he
  | @dry fl' b' fuel ts h hb' ht =>
    rw [ha] at h
    injection h with h
    injection h with _ h
    subst h
    rw [hb] at hb'
    injection hb' with hb'
    subst hb'
    unfold diceStarts at ht
    rw [hs, stepLoop_endless b.NZ fuel hd.2.2] at ht
    cases ht
  | @run fl' b' d2 e2 h hb' hl =>
    rw [ha] at h
    injection h with h
    injection h with _ h
    subst h
    rw [hb] at hb'
    injection hb' with hb'
    subst hb'
    rw [← he, hs] at hl
    have := diceLoop_zero_size hl hd.2.2 hd.2.1 rfl hd.1
    cases this

/-- The command of a tile that starts or ends below zero is refused. -/
theorem tile_refused {float : Bytes → Bool} {lib : GL F} {fl : CutDiceFlags} {t : Key} {d d' : Disk} {e : Exit}
    (hs : -(2 ^ 63) ≤ fl.size ∧ fl.size < 2 ^ 63) (hx : -(2 ^ 63) ≤ t.X ∧ t.X < 2 ^ 63) (hy : -(2 ^ 63) ≤ t.Y ∧ t.Y < 2 ^ 63)
    (hz : -(2 ^ 63) ≤ t.Z ∧ t.Z < 2 ^ 63) (hf : ∀ f, fl.files.head? = some f → Flag.NotFlag f)
    (hn : fl.size < 0 ∨ t.X < 0 ∨ t.Y < 0 ∨ t.Z < 0) (h : runTile (F := F) float lib fl d t d' e) : d' = d ∧ e = .fatal := by
  have m : (maxInt : Int) = 2 ^ 63 - 1 := by decide
  have hp := cut_args_parsed float fl t ⟨by omega, by omega⟩ ⟨by omega, by omega⟩ ⟨by omega, by omega⟩ ⟨by omega, by omega⟩ hf
  have hr : (tileFlags fl t).region.nonneg = false := by
    unfold Region.nonneg tileFlags
    simp only [Bool.not_eq_false', Bool.or_eq_true, decide_eq_true_eq]
    omega
  have hc : cutModel (F := F) d (tileFlags fl t) = none := by
    unfold cutModel
    cases (tileFlags fl t).files with
    | nil => rfl
    | cons f fs =>
      dsimp only
      split
      · rfl
      · have : BinVOX.Read (F := F) (input d f) (tileFlags fl t).region = none := by
          unfold BinVOX.Read
          split
          · rfl
          · unfold BinVOX.read
            rw [hr]
            rfl
        rw [this]
  unfold runTile at h
  cases h with
  | usage h => rw [voxcutFlags_exit h] at hp; cases hp
  | run h hr =>
    rw [hp] at h
    injection h with h
    subst h
    cases hr with
    | fatal h => exact ⟨rfl, rfl⟩
    | binvoxFails h _ => rw [hc] at h; cases h
    | voxFails h _ _ _ => rw [hc] at h; cases h
    | last h _ _ _ _ => rw [hc] at h; cases h

/-- **C79.** With a negative size (and a model that is not empty) a run of voxcut-dice fails at its first command and
    changes nothing. -/
theorem cut_dice_negative_size {float : Bytes → Bool} {lib : GL F} {d d' : Disk} {args : List Bytes} {out : Bytes}
    {fl : CutDiceFlags} {b : BinVOX F} {e : Exit} (ha : cutDiceFlags args = some (false, fl)) (hs : -(2 ^ 63) ≤ fl.size ∧ fl.size < 0)
    (hb : cutDiceBase (F := F) d fl = some b) (hd : 0 < b.NX ∧ 0 < b.NY ∧ 0 < b.NZ)
    (hf : ∀ f, fl.files.head? = some f → Flag.NotFlag f) (h : CutDiceProc (F := F) float lib d args out d' e) :
    d' = d ∧ e = .fatal := by
  have first : ∀ {d1 e1}, runTile (F := F) float lib fl d ⟨0, 0, 0⟩ d1 e1 → d1 = d ∧ e1 = .fatal :=
    tile_refused ⟨hs.1, by omega⟩ (by dsimp only; omega) (by dsimp only; omega) (by dsimp only; omega) hf (Or.inl hs.2)
  cases h with
  | usage h => rw [cutDiceFlags_exit h] at ha; cases ha
  | refused h hb => exact ⟨rfl, rfl⟩
  | dry h _ _ =>
    rw [ha] at h
    injection h with h
    injection h with h _
    cases h
  | run h hb' hl =>
    rw [ha] at h
    injection h with h
    injection h with _ h
    subst h
    rw [hb] at hb'
    injection hb' with hb'
    subst hb'
    cases hl with
    | endZ h => exact absurd hd.2.2 h
    | endY _ h _ => exact absurd hd.2.1 h
    | endX _ _ h _ => exact absurd hd.1 h
    | fails _ _ _ h _ => exact ⟨(first h).1, rfl⟩
    | tile _ _ _ h _ => cases (first h).2

/-- In 64 bits a step beyond the largest integer leads below zero. -/
theorem wrap64_beyond {x : Int} (h : 2 ^ 63 ≤ x) (h' : x < 2 ^ 64) : wrap64 x < 0 := by
  unfold wrap64
  rw [Int.bmod_def]
  split <;> omega

/-- A loop that ended well passed no tile that starts below zero and the steps of its variables fitted. -/
theorem diceLoop_done_fits {step : Disk → Key → Disk → Exit → Prop} {nx ny nz size : Int} (hs : 1 ≤ size ∧ size < 2 ^ 63)
    (hn : (0 < nx ∧ nx < 2 ^ 63) ∧ (0 < ny ∧ ny < 2 ^ 63) ∧ (0 < nz ∧ nz < 2 ^ 63))
    (bad : ∀ {d d' e} {t : Key}, (-(2 ^ 63) ≤ t.X ∧ t.X < 2 ^ 63) → (-(2 ^ 63) ≤ t.Y ∧ t.Y < 2 ^ 63) → (-(2 ^ 63) ≤ t.Z ∧ t.Z < 2 ^ 63) →
      t.X < 0 ∨ t.Y < 0 ∨ t.Z < 0 → step d t d' e → e ≠ .done)
    {zi yi xi : Int} {d d' : Disk} {e : Exit} (h : DiceLoop step nx ny nz size zi yi xi d d' e) :
    e = .done → -(2 ^ 63) ≤ zi ∧ zi < 2 ^ 63 → -(2 ^ 63) ≤ yi ∧ yi < 2 ^ 63 → -(2 ^ 63) ≤ xi ∧ xi < 2 ^ 63 →
    (zi < nz → yi < ny → xi < nx → 0 ≤ zi ∧ 0 ≤ yi ∧ 0 ≤ xi) ∧
    (zi < nz → yi < ny → 0 ≤ xi → size ∣ xi → ∀ q, xi ≤ q → q < nx → size ∣ q → q + size < 2 ^ 63) ∧
    (zi < nz → 0 ≤ yi → size ∣ yi → ∀ q, yi ≤ q → q < ny → size ∣ q → q + size < 2 ^ 63) ∧
    (0 ≤ zi → size ∣ zi → ∀ q, zi ≤ q → q < nz → size ∣ q → q + size < 2 ^ 63) := by
  have z0 : -(2 ^ 63) ≤ (0 : Int) ∧ (0 : Int) < 2 ^ 63 := by omega
  -- a step that comes out at least zero did not wrap
  have nowrap : ∀ {a : Int}, 0 ≤ a → a < 2 ^ 63 → 0 ≤ wrap64 (a + size) → a + size < 2 ^ 63 ∧ wrap64 (a + size) = a + size := by
    intro a h0 h1 h2
    by_cases hh : a + size < 2 ^ 63
    · exact ⟨hh, wrap64_small (by omega) hh⟩
    · have := wrap64_beyond (x := a + size) (by omega) (by omega)
      omega
  -- one variable: from the rest of the loop to the whole
  have ext : ∀ {a n : Int}, 0 ≤ a → a < n → n < 2 ^ 63 → size ∣ a → 0 ≤ wrap64 (a + size) →
      (0 ≤ wrap64 (a + size) → size ∣ wrap64 (a + size) → ∀ q, wrap64 (a + size) ≤ q → q < n → size ∣ q → q + size < 2 ^ 63) →
      ∀ q, a ≤ q → q < n → size ∣ q → q + size < 2 ^ 63 := by
    intro a n h0 h1 h2 hd hw ih q q1 q2 q3
    obtain ⟨w1, w2⟩ := nowrap h0 (by omega) hw
    by_cases hq : q = a
    · rw [hq]; exact w1
    · refine ih hw (by rw [w2]; exact dvd_add hd (dvd_refl _)) q ?_ q2 q3
      rw [w2]
      obtain ⟨k, rfl⟩ := q3
      obtain ⟨l, rfl⟩ := hd
      have hkl : l < k := by
        by_contra hc
        have : size * k ≤ size * l := Int.mul_le_mul_of_nonneg_left (by omega) (by omega)
        omega
      have : size * (l + 1) ≤ size * k := Int.mul_le_mul_of_nonneg_left (by omega) (by omega)
      rw [mul_add] at this
      omega
  induction h with
  | endZ hz =>
    intro _ _ _ _
    exact ⟨fun h => absurd h hz, fun h => absurd h hz, fun h => absurd h hz, fun _ _ q _ _ => by omega⟩
  | @endY zi yi xi d d' e hz hy _ ih =>
    intro he rz _ _
    obtain ⟨i1, _, _, i4⟩ := ih he (wrap64_range _) z0 z0
    have hw : 0 ≤ zi → 0 ≤ wrap64 (zi + size) := by
      intro h0
      by_cases hlt : wrap64 (zi + size) < nz
      · exact (i1 hlt hn.2.1.1 hn.1.1).1
      · omega
    refine ⟨fun _ h => absurd h hy, fun _ h => absurd h hy, fun _ _ _ q _ _ => by omega, ?_⟩
    intro h0 hd
    exact ext h0 hz hn.2.2.2 hd (hw h0) i4
  | @endX zi yi xi d d' e hz hy hx _ ih =>
    intro he rz ry _
    obtain ⟨i1, _, i3, i4⟩ := ih he rz (wrap64_range _) z0
    refine ⟨fun _ _ h => absurd h hx, fun _ _ _ _ q _ _ => by omega, ?_, i4⟩
    intro _ h0 hd
    refine ext h0 hy hn.2.1.2 hd ?_ (i3 hz)
    by_cases hlt : wrap64 (yi + size) < ny
    · exact (i1 hz hlt hn.1.1).2.1
    · omega
  | fails => intro he; cases he
  | @tile zi yi xi d d1 d' e hz hy hx h _ ih =>
    intro he rz ry rx
    obtain ⟨i1, i2, i3, i4⟩ := ih he rz ry (wrap64_range _)
    have pos : 0 ≤ zi ∧ 0 ≤ yi ∧ 0 ≤ xi := by
      by_contra hc
      exact bad (t := ⟨xi, yi, zi⟩) rx ry rz (by dsimp only; omega) h rfl
    refine ⟨fun _ _ _ => pos, ?_, i3, i4⟩
    intro _ _ h0 hd
    refine ext h0 hx hn.1.2 hd ?_ (i2 hz hy)
    by_cases hlt : wrap64 (xi + size) < nx
    · exact (i1 hz hy hlt).2.2
    · omega

/-- **C79.** If the loop variables do not stay within the 64-bit integers, a run of voxcut-dice never ends well. -/
theorem cut_dice_overflow {float : Bytes → Bool} {lib : GL F} {d d' : Disk} {args : List Bytes} {out : Bytes}
    {fl : CutDiceFlags} {b : BinVOX F} (ha : cutDiceFlags args = some (false, fl)) (hs : 1 ≤ fl.size ∧ fl.size < 2 ^ 63)
    (hb : cutDiceBase (F := F) d fl = some b)
    (hn : (0 < b.NX ∧ b.NX < 2 ^ 63) ∧ (0 < b.NY ∧ b.NY < 2 ^ 63) ∧ (0 < b.NZ ∧ b.NZ < 2 ^ 63))
    (hf : ∀ f, fl.files.head? = some f → Flag.NotFlag f) (hfit : ¬ TilesFit b.NX b.NY b.NZ fl.size) :
    ¬ CutDiceProc (F := F) float lib d args out d' .done := by
  intro h
  generalize he : Exit.done = e at h
  cases h with
  | usage h => rw [cutDiceFlags_exit h] at ha; cases ha
  | refused h hb => cases he
  | dry h _ _ =>
    rw [ha] at h
    injection h with h
    injection h with h _
    cases h
  | run h hb' hl =>
    rw [ha] at h
    injection h with h
    injection h with _ h
    subst h
    rw [hb] at hb'
    injection hb' with hb'
    subst hb'
    have z0 : -(2 ^ 63) ≤ (0 : Int) ∧ (0 : Int) < 2 ^ 63 := by omega
    obtain ⟨-, k2, k3, k4⟩ := diceLoop_done_fits hs hn (by
      intro d1 d2 e1 t tx ty tz neg hr hd
      have := (tile_refused ⟨by omega, hs.2⟩ tx ty tz hf (Or.inr neg) hr).2
      rw [hd] at this
      cases this) hl he.symm z0 z0 z0
    exact hfit ⟨fun q h0 h1 h2 => k2 hn.2.2.1 hn.2.1.1 le_rfl (dvd_zero _) q h0 h1 h2,
      fun q h0 h1 h2 => k3 hn.2.2.1 le_rfl (dvd_zero _) q h0 h1 h2, fun q h0 h1 h2 => k4 le_rfl (dvd_zero _) q h0 h1 h2⟩

/-- **C79 (violated by the code).** A dry run with a negative size can end well: the loop variables run down to the
    smallest 64-bit integer and come out at the top.  With `-size -4611686018427387904` it prints 27 commands, for boxes
    that start at 0, -2^62 and -2^63, each of which voxcut refuses. -/
theorem cut_dice_negative_dry {float : Bytes → Bool} {lib : GL F} {d : Disk} {args : List Bytes}
    {fl : CutDiceFlags} {b : BinVOX F} (ha : cutDiceFlags args = some (true, fl)) (hs : fl.size = -(2 ^ 62))
    (hb : cutDiceBase (F := F) d fl = some b)
    (hn : (0 < b.NX ∧ b.NX ≤ 2 ^ 62) ∧ (0 < b.NY ∧ b.NY ≤ 2 ^ 62) ∧ (0 < b.NZ ∧ b.NZ ≤ 2 ^ 62)) :
    CutDiceProc (F := F) float lib d args (ascii "#!/bin/bash -x\n" ++
      ([0, -(2 ^ 62), -(2 ^ 63)] : List Int).flatMap fun z => ([0, -(2 ^ 62), -(2 ^ 63)] : List Int).flatMap fun y =>
        ([0, -(2 ^ 62), -(2 ^ 63)] : List Int).flatMap fun x => dryLine fl ⟨x, y, z⟩) d .done := by
  have st : ∀ n : Int, 0 < n ∧ n ≤ 2 ^ 62 → stepLoop n fl.size 4 0 = some [0, -(2 ^ 62), -(2 ^ 63)] := by
    intro n hn
    rw [hs]
    have w1 : wrap64 (0 + -(2 ^ 62)) = -(2 ^ 62) := by decide
    have w2 : wrap64 (-(2 ^ 62) + -(2 ^ 62)) = -(2 ^ 63) := by decide
    have w3 : wrap64 (-(2 ^ 63) + -(2 ^ 62)) = 2 ^ 62 := by decide
    unfold stepLoop
    rw [if_pos (by omega), w1]
    unfold stepLoop
    rw [if_pos (by omega), w2]
    unfold stepLoop
    rw [if_pos (by omega), w3]
    unfold stepLoop
    rw [if_neg (by omega)]
    rfl
  have := CutDiceProc.dry (float := float) (lib := lib) (fuel := 4) (ts := ([0, -(2 ^ 62), -(2 ^ 63)] : List Int).flatMap fun z =>
    ([0, -(2 ^ 62), -(2 ^ 63)] : List Int).flatMap fun y => ([0, -(2 ^ 62), -(2 ^ 63)] : List Int).map fun x => ⟨x, y, z⟩) ha hb (by
      unfold diceStarts
      rw [st _ hn.1, st _ hn.2.1, st _ hn.2.2])
  simp only [List.flatMap_assoc, List.flatMap_map] at this
  exact this

/-- The hypotheses are met: `voxcut-dice -size 0 -ostl o b`. -/
theorem exBadSize : ∃ fl b, cutDiceFlags [ascii "-size", ascii "0", ascii "-ostl", ascii "o", ascii "b"] = some (false, fl) ∧
    fl.size = 0 ∧ cutDiceBase (F := ℚ) exCutDisk fl = some b ∧ 0 < b.NX ∧ 0 < b.NY ∧ 0 < b.NZ := by
  refine ⟨⟨0, [], ascii "o", [], [ascii "b"]⟩, _, rfl, by decide, rfl, ?_, ?_, ?_⟩ <;> decide +kernel

/-! ## File names that look like flags -/

theorem cut_args_exit {float : Bytes → Bool} {fl : CutDiceFlags} {t : Key} {ok : Bool}
    (hs : -(maxInt + 1 : Int) ≤ fl.size ∧ fl.size ≤ maxInt) (hx : -(maxInt + 1 : Int) ≤ t.X ∧ t.X ≤ maxInt)
    (hy : -(maxInt + 1 : Int) ≤ t.Y ∧ t.Y ≤ maxInt) (hz : -(maxInt + 1 : Int) ≤ t.Z ∧ t.Z ≤ maxInt)
    (hf : Flag.parse voxcutKind float fl.files = .exit ok) : Flag.parse voxcutKind float (cutArgs fl t).tail = .exit ok := by
  have e : (cutArgs fl t).tail = (45 :: ascii "sx") :: fmtInt t.X :: (45 :: ascii "sy") :: fmtInt t.Y ::
      (45 :: ascii "sz") :: fmtInt t.Z :: (45 :: ascii "cx") :: fmtInt fl.size :: (45 :: ascii "cy") :: fmtInt fl.size ::
      (45 :: ascii "cz") :: fmtInt fl.size ::
      (outOption (45 :: ascii "ovox") fl.voxPrefix (ascii ".vox") fl.size t ++
      (outOption (45 :: ascii "obinvox") fl.binvoxPrefix (ascii ".binvox") fl.size t ++
      (outOption (45 :: ascii "ostl") fl.stlPrefix (ascii ".stl") fl.size t ++ fl.files))) := by
    unfold cutArgs
    simp only [List.append_assoc]
    rfl
  rw [e, parse_int (by decide) (by decide) hx, parse_int (by decide) (by decide) hy, parse_int (by decide) (by decide) hz,
    parse_int (by decide) (by decide) hs, parse_int (by decide) (by decide) hs, parse_int (by decide) (by decide) hs,
    parse_option (by decide) (by decide), parse_option (by decide) (by decide), parse_option (by decide) (by decide), hf]
  by_cases h1 : fl.voxPrefix = [] <;> by_cases h2 : fl.binvoxPrefix = [] <;> by_cases h3 : fl.stlPrefix = [] <;>
    simp only [h1, h2, h3, if_true, if_false] <;> rfl

theorem diceLoop_exits {float : Bytes → Bool} {lib : GL F} {fl : CutDiceFlags} {ok : Bool} {nx ny nz : Int}
    (hs : 1 ≤ fl.size ∧ fl.size ≤ maxInt) (hx : nx ≤ maxInt) (hy : ny ≤ maxInt) (hz : nz ≤ maxInt)
    (hf : Flag.parse voxcutKind float fl.files = .exit ok) {zi yi xi : Int} {d d' : Disk} {e : Exit}
    (h : DiceLoop (runTile (F := F) float lib fl) nx ny nz fl.size zi yi xi d d' e) :
    -(maxInt + 1 : Int) ≤ zi → -(maxInt + 1 : Int) ≤ yi → -(maxInt + 1 : Int) ≤ xi → d' = d ∧ (ok = true → e = .done) ∧ (ok = false → zi < nz → yi < ny → xi < nx → e = .fatal) := by
  have wr : ∀ x : Int, -(maxInt + 1 : Int) ≤ wrap64 x := by
    intro x
    have m : (maxInt : Int) = 2 ^ 63 - 1 := by decide
    have := (wrap64_range x).1
    omega
  have st : ∀ {t : Key} {d d' : Disk} {e : Exit}, -(maxInt + 1 : Int) ≤ t.X → -(maxInt + 1 : Int) ≤ t.Y → -(maxInt + 1 : Int) ≤ t.Z → t.X < nx → t.Y < ny → t.Z < nz →
      runTile (F := F) float lib fl d t d' e → d' = d ∧ e = if ok then .done else .fatal := by
    intro t d d' e a1 a2 a3 b1 b2 b3 h
    have hp := cut_args_exit (t := t) ⟨by omega, hs.2⟩ ⟨by omega, by omega⟩ ⟨by omega, by omega⟩ ⟨by omega, by omega⟩ hf
    cases h with
    | usage h =>
      rw [hp] at h
      injection h with h
      rw [h]
      exact ⟨rfl, rfl⟩
    | run h hr =>
      rw [voxcutFlags_exit hp] at h
      cases h
  induction h with
  | endZ hz => intro _ _ _; exact ⟨rfl, fun _ => rfl, fun _ h => absurd h hz⟩
  | endY _ hy _ ih =>
    intro _ _ _
    obtain ⟨a, b, -⟩ := ih (wr _) (by omega) (by omega)
    exact ⟨a, b, fun _ _ h => absurd h hy⟩
  | endX _ _ hx _ ih =>
    intro a b _
    obtain ⟨a, b, -⟩ := ih a (wr _) (by omega)
    exact ⟨a, b, fun _ _ _ h => absurd h hx⟩
  | fails hz hy hx h he =>
    intro a b c
    obtain ⟨h1, h2⟩ := st c b a hx hy hz h
    refine ⟨h1, fun h => ?_, fun _ _ _ _ => rfl⟩
    rw [h, if_pos rfl] at h2
    exact absurd h2 he
  | tile hz hy hx h _ ih =>
    intro a b c
    obtain ⟨h1, h2⟩ := st c b a hx hy hz h
    obtain ⟨i1, i2, -⟩ := ih a b (wr _)
    refine ⟨i1.trans h1, i2, fun h => ?_⟩
    rw [h, if_neg (by decide)] at h2
    cases h2

/-- **C79 (violated by the code).** A file name that begins with a dash can be given to voxcut-dice after
    `--`, but the commands pass it on without one, and voxcut takes it for a flag.  Then no tile is made, and
    voxcut-dice nevertheless reports success if voxcut does, that is, if the name is `-h` or `-help`. -/
theorem cut_dice_dash_name {float : Bytes → Bool} {lib : GL F} {d d' : Disk} {args : List Bytes} {out : Bytes}
    {fl : CutDiceFlags} {b : BinVOX F} {ok : Bool} {e : Exit} (ha : cutDiceFlags args = some (false, fl))
    (hb : cutDiceBase (F := F) d fl = some b) (hs : 1 ≤ fl.size ∧ fl.size ≤ maxInt)
    (hd : (0 < b.NX ∧ 0 < b.NY ∧ 0 < b.NZ) ∧ b.NX ≤ maxInt ∧ b.NY ≤ maxInt ∧ b.NZ ≤ maxInt)
    (hf : Flag.parse voxcutKind float fl.files = .exit ok) (h : CutDiceProc (F := F) float lib d args out d' e) :
    d' = d ∧ e = if ok then .done else .fatal := by
  cases h with
  | usage h => rw [cutDiceFlags_exit h] at ha; cases ha
  | refused h hb' =>
    rw [ha] at h
    injection h with h
    injection h with _ h
    subst h
    rw [hb] at hb'
    cases hb'
  | dry h hb' ht =>
    rw [ha] at h
    injection h with h
    injection h with h _
    cases h
  | run h hb' hl =>
    rw [ha] at h
    injection h with h
    injection h with _ h
    subst h
    rw [hb] at hb'
    injection hb' with hb'
    subst hb'
    obtain ⟨h1, h2, h3⟩ := diceLoop_exits hs hd.2.1 hd.2.2.1 hd.2.2.2 hf hl (by omega) (by omega) (by omega)
    refine ⟨h1, ?_⟩
    cases ok with
    | true => exact h2 rfl
    | false => exact h3 rfl hd.1.2.2 hd.1.2.1 hd.1.1

/-- The hypotheses are met, with both outcomes: `voxcut-dice -size 1 -ostl o -- -h` and the same with the
    name `-c`. -/
theorem exDashName (float : Bytes → Bool) (name : Bytes) (hn : name = ascii "-h" ∨ name = ascii "-c") :
    ∃ fl b, cutDiceFlags [ascii "-size", ascii "1", ascii "-ostl", ascii "o", ascii "--", name] = some (false, fl) ∧
    cutDiceBase (F := ℚ) (put (fun _ => none) name (exDiceFile exCutBase).bytes) fl = some b ∧
    (1 ≤ fl.size ∧ fl.size ≤ maxInt) ∧ ((0 < b.NX ∧ 0 < b.NY ∧ 0 < b.NZ) ∧ b.NX ≤ maxInt ∧ b.NY ≤ maxInt ∧ b.NZ ≤ maxInt) ∧
    Flag.parse voxcutKind float fl.files = .exit (name = ascii "-h") := by
  rcases hn with rfl | rfl
  · refine ⟨⟨1, [], ascii "o", [], [ascii "-h"]⟩, _, rfl, rfl, ⟨by decide, by decide⟩, ?_, rfl⟩
    decide +kernel
  · refine ⟨⟨1, [], ascii "o", [], [ascii "-c"]⟩, _, rfl, rfl, ⟨by decide, by decide⟩, ?_, rfl⟩
    decide +kernel

/-- `voxcut-dice -size -1 -ostl o b`. -/
example (float : Bytes → Bool) (lib : GL ℚ) (out : Bytes) (d' : Disk) (e : Exit)
    (h : CutDiceProc (F := ℚ) float lib exCutDisk [ascii "-size", ascii "-1", ascii "-ostl", ascii "o", ascii "b"] out d' e) :
    d' = exCutDisk ∧ e = .fatal :=
  cut_dice_negative_size (fl := ⟨-1, [], ascii "o", [], [ascii "b"]⟩) (b := _) rfl (by decide) rfl (by decide +kernel)
    (by intro f hf; injection hf with hf; rw [← hf]; exact Or.inl (by decide)) h

/-- `voxcut-dice -n -size -4611686018427387904 -ostl o b` ends well. -/
example (float : Bytes → Bool) (lib : GL ℚ) : ∃ out,
    CutDiceProc (F := ℚ) float lib exCutDisk [ascii "-n", ascii "-size", ascii "-4611686018427387904", ascii "-ostl", ascii "o", ascii "b"]
      out exCutDisk .done :=
  ⟨_, cut_dice_negative_dry (fl := ⟨-4611686018427387904, [], ascii "o", [], [ascii "b"]⟩) (b := _) rfl (by decide) rfl (by decide +kernel)⟩

/-- A file whose header declares 2^63 - 1 voxels in the direction of x, of which only the first is stored. -/
def exLongDisk : Disk :=
  put (fun _ => none) (ascii "b") (headerBytes binvoxMagic 9223372036854775807 1 1 (0 : ℚ) 0 0 1 ++ [1, 1])

/-- `voxcut-dice -size 4611686018427387904 -ostl o b` on it: the steps do not fit. -/
example (float : Bytes → Bool) (lib : GL ℚ) (out : Bytes) (d' : Disk) :
    ¬ CutDiceProc (F := ℚ) float lib exLongDisk [ascii "-size", ascii "4611686018427387904", ascii "-ostl", ascii "o", ascii "b"]
      out d' .done := by
  have hm : (cutDiceBase (F := ℚ) exLongDisk ⟨4611686018427387904, [], ascii "o", [], [ascii "b"]⟩).map (fun b => (b.NX, b.NY, b.NZ)) =
      some (9223372036854775807, 1, 1) := by decide +kernel
  obtain ⟨b, hb, he⟩ := Option.map_eq_some_iff.mp hm
  injection he with e1 he
  injection he with e2 e3
  refine cut_dice_overflow (fl := ⟨4611686018427387904, [], ascii "o", [], [ascii "b"]⟩) rfl (by decide) hb
    (by rw [e1, e2, e3]; decide) (by intro f hf; injection hf with hf; rw [← hf]; exact Or.inl (by decide)) ?_
  rw [e1, e2, e3]
  intro h
  have := h.1 4611686018427387904 (by decide) (by decide) (by decide)
  revert this
  decide

example (float : Bytes → Bool) (lib : GL ℚ) (out : Bytes) (d' : Disk) :
    ¬ CutDiceProc (F := ℚ) float lib exCutDisk [ascii "-size", ascii "0", ascii "-ostl", ascii "o", ascii "b"] out d' .done := by
  obtain ⟨fl, b, h1, h2, h3, h4⟩ := exBadSize
  exact cut_dice_zero_size h1 h2 h3 h4

example (float : Bytes → Bool) (lib : GL ℚ) := (exDashName float (ascii "-h") (Or.inl rfl)).imp fun _ h => h.imp fun _ h =>
  fun (out : Bytes) (d' : Disk) (e : Exit) => cut_dice_dash_name (lib := lib) (d' := d') (out := out) (e := e) h.1 h.2.1 h.2.2.1 h.2.2.2.1 h.2.2.2.2

end Cmd
end StlDice
