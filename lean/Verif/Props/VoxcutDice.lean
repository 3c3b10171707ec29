import Verif.Lemmas.Steps64
import Verif.Props.VoxcutTile
import Verif.Props.DiceFiles
import Mathlib.Tactic.Ring
import Mathlib.Tactic.FieldSimp
import Mathlib.Tactic.Linarith

/-! # C38, C39: voxcut-dice and binvox-dice -/

namespace StlDice
open Spec GoFloat BinVOX

/-! ## The stepping loops -/

theorem stepLoop_mem (n size : Int) (hs : 1 ≤ size) : ∀ (fuel : Nat) (i : Int) (l : List Int),
    stepLoopU n size fuel i = some l → ∀ j, j ∈ l ↔ i ≤ j ∧ j < n ∧ size ∣ j - i := by
  intro fuel
  induction fuel with
  | zero => intro i l h; cases h
  | succ fuel ih =>
    intro i l h j
    unfold stepLoopU at h
    split at h
    · rename_i hi
      cases hr : stepLoopU n size fuel (i + size) with
      | none => rw [hr] at h; cases h
      | some l' =>
        rw [hr] at h
        injection h with h
        rw [← h, List.mem_cons, ih _ _ hr j]
        constructor
        · rintro (rfl | ⟨h1, h2, h3⟩)
          · exact ⟨le_refl _, hi, by simp⟩
          · refine ⟨by omega, h2, ?_⟩
            obtain ⟨c, hc⟩ := h3
            exact ⟨c + 1, by rw [mul_add, ← hc]; ring⟩
        · rintro ⟨h1, h2, c, hc⟩
          by_cases e : j = i
          · exact .inl e
          · right
            have hc0 : 0 < size * c := by omega
            have hc1 : 1 ≤ c := by
              by_contra hneg
              have : size * c ≤ 0 := mul_nonpos_of_nonneg_of_nonpos (by omega) (by omega)
              omega
            refine ⟨?_, h2, c - 1, ?_⟩
            · have : size * 1 ≤ size * c := Int.mul_le_mul_of_nonneg_left hc1 (by omega)
              omega
            · rw [mul_sub, ← hc]; ring
    · rename_i hi
      injection h with h
      rw [← h]
      constructor
      · intro h; cases h
      · rintro ⟨h1, h2, _⟩; omega

theorem stepLoop_nodup (n size : Int) (hs : 1 ≤ size) : ∀ (fuel : Nat) (i : Int) (l : List Int),
    stepLoopU n size fuel i = some l → l.Nodup := by
  intro fuel
  induction fuel with
  | zero => intro i l h; cases h
  | succ fuel ih =>
    intro i l h
    unfold stepLoopU at h
    split at h
    · cases hr : stepLoopU n size fuel (i + size) with
      | none => rw [hr] at h; cases h
      | some l' =>
        rw [hr] at h
        injection h with h
        rw [← h, List.nodup_cons]
        refine ⟨fun hm => ?_, ih _ _ hr⟩
        have := (stepLoop_mem n size hs _ _ _ hr i).mp hm
        omega
    · injection h with h
      rw [← h]; exact List.nodup_nil

theorem stepLoop_ends (n size : Int) (hs : 1 ≤ size) : ∀ (fuel : Nat) (i : Int),
    (n - i).toNat < fuel → ∃ l, stepLoopU n size fuel i = some l := by
  intro fuel
  induction fuel with
  | zero => intro i h; omega
  | succ fuel ih =>
    intro i h
    unfold stepLoopU
    split
    · obtain ⟨l, hl⟩ := ih (i + size) (by omega)
      rw [hl]; exact ⟨_, rfl⟩
    · exact ⟨_, rfl⟩

theorem stepLoop_endless (n : Int) : ∀ (fuel : Nat), 0 < n → stepLoop n 0 fuel 0 = none := by
  intro fuel hi
  induction fuel with
  | zero => rfl
  | succ fuel ih =>
    unfold stepLoop
    rw [if_pos hi, show wrap64 (0 + 0) = 0 from rfl, ih]
    rfl

/-! ## C38: tiles -/

/-- Membership and distinctness of the start corners. -/
theorem diceStarts_mem (nx ny nz size : Int) (hs : 1 ≤ size) (hfit : TilesFit nx ny nz size) (fuel : Nat) (ts : List Key)
    (h : diceStarts fuel nx ny nz size = some ts) (t : Key) :
    t ∈ ts ↔ InDims nx ny nz t ∧ size ∣ t.X ∧ size ∣ t.Y ∧ size ∣ t.Z := by
  rw [diceStarts_unbounded hs hfit] at h
  have key : ∀ (n : Int) (l : List Int), stepLoopU n size fuel 0 = some l →
      ∀ j, j ∈ l ↔ 0 ≤ j ∧ j < n ∧ size ∣ j := by
    intro n l hl j
    have := stepLoop_mem n size hs fuel 0 l hl j
    rwa [sub_zero] at this
  obtain ⟨X, Y, Z⟩ := t
  unfold diceStartsU at h
  unfold InDims
  dsimp only
  cases hz : stepLoopU nz size fuel 0 with
  | none => rw [hz] at h; cases h
  | some zs =>
    have kz := key nz zs hz Z
    rw [hz] at h
    cases zs with
    | nil =>
      injection h with h; rw [← h]
      constructor
      · intro h; cases h
      · rintro ⟨⟨_, _, _, _, h5, h6⟩, _, _, h9⟩
        exact absurd (kz.mpr ⟨h5, h6, h9⟩) (by simp)
    | cons z0 zs =>
      dsimp only at h
      cases hy : stepLoopU ny size fuel 0 with
      | none => rw [hy] at h; cases h
      | some ys =>
        have ky := key ny ys hy Y
        rw [hy] at h
        cases ys with
        | nil =>
          injection h with h; rw [← h]
          constructor
          · intro h; cases h
          · rintro ⟨⟨_, _, h3, h4, _, _⟩, _, h8, _⟩
            exact absurd (ky.mpr ⟨h3, h4, h8⟩) (by simp)
        | cons y0 ys =>
          dsimp only at h
          cases hx : stepLoopU nx size fuel 0 with
          | none => rw [hx] at h; cases h
          | some xs =>
            have kx := key nx xs hx X
            rw [hx] at h
            injection h with h
            rw [← h, List.mem_flatMap]
            constructor
            · rintro ⟨zi, hzi, h⟩
              rw [List.mem_flatMap] at h
              obtain ⟨yi, hyi, h⟩ := h
              rw [List.mem_map] at h
              obtain ⟨xi, hxi, e⟩ := h
              injection e with e1 e2 e3
              subst e1 e2 e3
              have a := kx.mp hxi
              have b := ky.mp hyi
              have c := kz.mp hzi
              exact ⟨⟨a.1, a.2.1, b.1, b.2.1, c.1, c.2.1⟩, a.2.2, b.2.2, c.2.2⟩
            · rintro ⟨⟨h1, h2, h3, h4, h5, h6⟩, h7, h8, h9⟩
              refine ⟨Z, kz.mpr ⟨h5, h6, h9⟩, ?_⟩
              rw [List.mem_flatMap]
              refine ⟨Y, ky.mpr ⟨h3, h4, h8⟩, ?_⟩
              rw [List.mem_map]
              exact ⟨X, kx.mpr ⟨h1, h2, h7⟩, rfl⟩

theorem diceStarts_nodup (nx ny nz size : Int) (hs : 1 ≤ size) (hfit : TilesFit nx ny nz size) (fuel : Nat) (ts : List Key)
    (h : diceStarts fuel nx ny nz size = some ts) : ts.Nodup := by
  rw [diceStarts_unbounded hs hfit] at h
  unfold diceStartsU at h
  split at h
  · cases h
  · injection h with h; rw [← h]; exact List.nodup_nil
  · rename_i zs _ hz
    split at h
    · cases h
    · injection h with h; rw [← h]; exact List.nodup_nil
    · rename_i ys _ hy
      split at h
      · cases h
      · rename_i xs hx
        injection h with h
        rw [← h]
        have dz := stepLoop_nodup nz size hs fuel 0 zs hz
        have dy := stepLoop_nodup ny size hs fuel 0 ys hy
        have dx := stepLoop_nodup nx size hs fuel 0 xs hx
        rw [List.nodup_flatMap]
        refine ⟨fun z _ => ?_, ?_⟩
        · rw [List.nodup_flatMap]
          refine ⟨fun y _ => ?_, ?_⟩
          · exact dx.map (fun a b e => by injection e)
          · refine dy.imp ?_
            intro a b hab k h1 h2
            rw [List.mem_map] at h1 h2
            obtain ⟨_, _, rfl⟩ := h1
            obtain ⟨_, _, e⟩ := h2
            injection e with _ e _
            exact hab e.symm
        · refine dz.imp ?_
          intro a b hab k h1 h2
          rw [List.mem_flatMap] at h1 h2
          obtain ⟨_, _, h1⟩ := h1
          obtain ⟨_, _, h2⟩ := h2
          rw [List.mem_map] at h1 h2
          obtain ⟨_, _, rfl⟩ := h1
          obtain ⟨_, _, e⟩ := h2
          injection e with _ _ e
          exact hab e.symm

/-- **C38, part 1.** For a size of at least one (and as long as the loop variables are 64-bit integers) the loops of voxcut-dice end, no tile is issued twice,
    and every voxel index of the model lies in exactly one of the tiles `[t, t + size)`. -/
theorem cut_tiles_partition (nx ny nz size : Int) (hs : 1 ≤ size) (hfit : TilesFit nx ny nz size) :
    (∃ fuel ts, diceStarts fuel nx ny nz size = some ts) ∧
    ∀ fuel ts, diceStarts fuel nx ny nz size = some ts → ts.Nodup ∧
      (∀ t ∈ ts, InDims nx ny nz t) ∧
      ∀ k, InDims nx ny nz k →
        ∃ t, (t ∈ ts ∧ InHalfOpen (cutRegion size t) k) ∧
          ∀ t', t' ∈ ts ∧ InHalfOpen (cutRegion size t') k → t' = t := by
  refine ⟨?_, ?_⟩
  · obtain ⟨xs, hx⟩ := stepLoop_ends nx size hs (nx.toNat + ny.toNat + nz.toNat + 1) 0 (by omega)
    obtain ⟨ys, hy⟩ := stepLoop_ends ny size hs (nx.toNat + ny.toNat + nz.toNat + 1) 0 (by omega)
    obtain ⟨zs, hz⟩ := stepLoop_ends nz size hs (nx.toNat + ny.toNat + nz.toNat + 1) 0 (by omega)
    refine ⟨nx.toNat + ny.toNat + nz.toNat + 1, ?_⟩
    rw [diceStarts_unbounded hs hfit]
    unfold diceStartsU
    rw [hz]
    cases zs with
    | nil => exact ⟨_, rfl⟩
    | cons z zs =>
      dsimp only
      rw [hy]
      cases ys with
      | nil => exact ⟨_, rfl⟩
      | cons y ys =>
        dsimp only
        rw [hx]
        exact ⟨_, rfl⟩
  · intro fuel ts h
    refine ⟨diceStarts_nodup nx ny nz size hs hfit fuel ts h, fun t ht =>
      ((diceStarts_mem nx ny nz size hs hfit fuel ts h t).mp ht).1, ?_⟩
    rintro ⟨X, Y, Z⟩ hk
    have one : ∀ a : Int, 0 ≤ a → ∃ q, 0 ≤ q ∧ q ≤ a ∧ a < q + size ∧ size ∣ q ∧
        ∀ q', size ∣ q' → q' ≤ a → a < q' + size → q' = q := by
      intro a ha
      have h1 := Int.emod_add_mul_ediv a size
      have h2 := Int.emod_nonneg a (show size ≠ 0 by omega)
      have h3 := Int.emod_lt_of_pos a (show 0 < size by omega)
      have h4 : 0 ≤ a / size := Int.ediv_nonneg ha (by omega)
      have h5 : 0 ≤ size * (a / size) := mul_nonneg (by omega) h4
      refine ⟨size * (a / size), h5, by omega, by omega, ⟨_, rfl⟩, ?_⟩
      rintro q' ⟨c, rfl⟩ g1 g2
      have : a / size = c := by
        rw [Int.ediv_eq_iff_of_pos (by omega)]
        constructor
        · rw [mul_comm]; exact g1
        · rw [mul_comm c]; exact g2
      rw [this]
    unfold InDims at hk
    dsimp only at hk
    obtain ⟨x, x1, x2, x3, x4, x5⟩ := one X hk.1
    obtain ⟨y, y1, y2, y3, y4, y5⟩ := one Y hk.2.2.1
    obtain ⟨z, z1, z2, z3, z4, z5⟩ := one Z hk.2.2.2.2.1
    refine ⟨⟨x, y, z⟩, ⟨?_, ?_⟩, ?_⟩
    · rw [diceStarts_mem nx ny nz size hs hfit fuel ts h]
      unfold InDims
      dsimp only
      exact ⟨⟨x1, by omega, y1, by omega, z1, by omega⟩, x4, y4, z4⟩
    · unfold InHalfOpen cutRegion
      dsimp only
      omega
    · rintro ⟨x', y', z'⟩ ⟨hm, hin⟩
      have := (diceStarts_mem nx ny nz size hs hfit fuel ts h _).mp hm
      dsimp only at this
      unfold InHalfOpen cutRegion at hin
      dsimp only at hin
      rw [x5 x' this.2.1 (by omega) (by omega), y5 y' this.2.2.1 (by omega) (by omega),
        z5 z' this.2.2.2 (by omega) (by omega)]

/-- **C38, non-termination.** A size of zero makes voxcut-dice loop for ever on every
    model with positive dimensions: no number of loop tests suffices. -/
theorem cut_dice_endless {F : Type} [FloatText F] (fl : CutDiceFlags) (base : Option Input) (b : BinVOX F)
    (hf : fl.files ≠ []) (ho : ¬ (fl.binvoxPrefix = [] ∧ fl.stlPrefix = [] ∧ fl.voxPrefix = []))
    (hr : BinVOX.Read (F := F) base ⟨0, 0, 0, 1, 1, 1⟩ = some b) (hz : 0 < b.NZ) (hs : fl.size = 0) :
    ∀ fuel, cutDice (F := F) fuel fl base = .endless := by
  intro fuel
  unfold cutDice
  have hl : ¬ fl.files.length < 1 := by
    cases h : fl.files with
    | nil => exact absurd h hf
    | cons a l => simp
  rw [if_neg hl, if_neg ho, hr]
  dsimp only
  rw [if_neg (by omega)]
  unfold diceStarts
  rw [hs, stepLoop_endless b.NZ fuel hz]

/-- voxcut-dice refuses to dice exactly when the size exceeds every dimension (given readable input
    and proper flags), and otherwise issues the tiles of `cut_tiles_partition`. -/
theorem cut_dice_cases {F : Type} [FloatText F] (fl : CutDiceFlags) (base : Option Input) (b : BinVOX F)
    (hf : fl.files ≠ []) (ho : ¬ (fl.binvoxPrefix = [] ∧ fl.stlPrefix = [] ∧ fl.voxPrefix = []))
    (hr : BinVOX.Read (F := F) base ⟨0, 0, 0, 1, 1, 1⟩ = some b) (hs : 1 ≤ fl.size) (hfit : TilesFit b.NX b.NY b.NZ fl.size) :
    (b.NX < fl.size ∧ b.NY < fl.size ∧ b.NZ < fl.size → ∀ fuel, cutDice (F := F) fuel fl base = .fatal) ∧
    (¬ (b.NX < fl.size ∧ b.NY < fl.size ∧ b.NZ < fl.size) →
      ∃ fuel ts, cutDice (F := F) fuel fl base = .tiles ts ∧ diceStarts fuel b.NX b.NY b.NZ fl.size = some ts) := by
  have hl : ¬ fl.files.length < 1 := by
    cases h : fl.files with
    | nil => exact absurd h hf
    | cons a l => simp
  constructor
  · intro h fuel
    unfold cutDice
    rw [if_neg hl, if_neg ho, hr]
    dsimp only
    rw [if_pos (by omega)]
  · intro h
    obtain ⟨fuel, ts, ht⟩ := (cut_tiles_partition b.NX b.NY b.NZ fl.size hs hfit).1
    refine ⟨fuel, ts, ?_, ht⟩
    unfold cutDice
    rw [if_neg hl, if_neg ho, hr]
    dsimp only
    rw [if_neg (by omega), ht]

/-- **C38, part 2.** The output names of different tiles differ (for the same prefix, extension and
    size; also beyond four digits). -/
theorem cut_names_distinct (pre ext : Bytes) (size : Int) (t t' : Key)
    (ht : 0 ≤ t.X ∧ 0 ≤ t.Y ∧ 0 ≤ t.Z) (ht' : 0 ≤ t'.X ∧ 0 ≤ t'.Y ∧ 0 ≤ t'.Z)
    (h : cutName pre ext size t = cutName pre ext size t') : t = t' := by
  unfold cutName at h
  simp only [List.append_assoc] at h
  have e : ∀ u : Key, pre ++ (ascii "-" ++ (padInt 4 u.X ++ (ascii "-" ++ (padInt 4 u.Y ++ (ascii "-" ++
      (padInt 4 u.Z ++ (ascii "-" ++ (padInt 4 size ++ (ascii "-" ++ (padInt 4 size ++
        (ascii "-" ++ (padInt 4 size ++ ext)))))))))))) =
      (pre ++ (ascii "-" ++ (padInt 4 u.X ++ (ascii "-" ++ (padInt 4 u.Y ++ (ascii "-" ++ padInt 4 u.Z)))))) ++
      (ascii "-" ++ (padInt 4 size ++ (ascii "-" ++ (padInt 4 size ++
        (ascii "-" ++ (padInt 4 size ++ ext)))))) := by
    intro u; simp only [List.append_assoc]
  rw [e t, e t'] at h
  have h := List.append_cancel_right h
  have h := List.append_cancel_left h
  have h := List.append_cancel_left h
  rw [ascii_dash] at h
  simp only [List.singleton_append] at h
  obtain ⟨h1, h⟩ := sep_left _ _ _ _ (padInt_digits 4 ht.1) (padInt_digits 4 ht'.1) h
  obtain ⟨h2, h3⟩ := sep_left _ _ _ _ (padInt_digits 4 ht.2.1) (padInt_digits 4 ht'.2.1) h
  have e1 := padInt_injective 4 ht.1 ht'.1 h1
  have e2 := padInt_injective 4 ht.2.1 ht'.2.1 h2
  have e3 := padInt_injective 4 ht.2.2 ht'.2.2 h3
  obtain ⟨X, Y, Z⟩ := t
  obtain ⟨X', Y', Z'⟩ := t'
  dsimp only at e1 e2 e3
  rw [e1, e2, e3]

/-- The argument vector starts with the command and the six region options naming exactly
    `[t, t+size)`, and contains the file names given on the command line at the end. -/
theorem cut_args_region (fl : CutDiceFlags) (t : Key) :
    (cutArgs fl t).take 13 = ascii "voxcut" :: [
      (ascii "-sx", (cutRegion fl.size t).sx), (ascii "-sy", (cutRegion fl.size t).sy),
      (ascii "-sz", (cutRegion fl.size t).sz), (ascii "-cx", (cutRegion fl.size t).cx),
      (ascii "-cy", (cutRegion fl.size t).cy), (ascii "-cz", (cutRegion fl.size t).cz)].flatMap
        (fun p => [p.1, fmtInt p.2]) ∧
    fl.files <:+ cutArgs fl t := by
  refine ⟨rfl, ?_⟩
  unfold cutArgs
  exact List.suffix_append _ _

/-! ## End to end -/

/-- **C38 end to end (tile outputs).** For well-formed files, whenever voxcut succeeds on each tile (or
    its failure leaves no file): voxel `k` of the model is in the base and in no cut iff the output for
    the tile containing it exists and holds it at its place in the tile. -/
theorem cut_dice_exact {F : Type} [GoFloat F] [FloatText F] [LawfulFloatText F] (hF : WhiteCancels F)
    (baseFile : Input) (bw : BinVOX F) (hbw : BinVOX.read baseFile wholeRegion = some bw)
    (hx : 0 < bw.NX ∧ bw.NX ≤ maxInt) (hy : 0 < bw.NY ∧ bw.NY ≤ maxInt) (hz : 0 < bw.NZ ∧ bw.NZ ≤ maxInt)
    (cuts : List (Input × BinVOX F))
    (hcw : ∀ p ∈ cuts, BinVOX.read p.1 wholeRegion = some p.2 ∧ 0 < p.2.NX ∧ 0 < p.2.NY ∧ 0 < p.2.NZ)
    (size : Int) (hs : 1 ≤ size ∧ size ≤ maxInt) (hfit : TilesFit bw.NX bw.NY bw.NZ size) (fuel : Nat) (ts : List Key)
    (hts : diceStarts fuel bw.NX bw.NY bw.NZ size = some ts) (k : Key) :
    (Vox bw k ∧ ∀ p ∈ cuts, ¬ Vox p.2 k) ↔
      ∃ (t : Key) (w : Sink) (b' : BinVOX F), t ∈ ts ∧
        voxcutMain (F := F) baseFile (cuts.map (·.1)) (cutRegion size t) ⟨[], []⟩ = some w ∧
        BinVOX.read ⟨w.out, true⟩ wholeRegion = some b' ∧
        Vox b' (k.shift (-t.X) (-t.Y) (-t.Z)) := by
  have hnn : ∀ t ∈ ts, 0 ≤ t.X ∧ 0 ≤ t.Y ∧ 0 ≤ t.Z := fun t ht => by
    have := ((diceStarts_mem _ _ _ size hs.1 hfit fuel ts hts t).mp ht).1
    unfold InDims at this; omega
  have back : ∀ t : Key, (k.shift (-t.X) (-t.Y) (-t.Z)).shift t.X t.Y t.Z = k := by
    intro t; obtain ⟨X, Y, Z⟩ := k; simp [Key.shift]
  have s0 : size ≠ 0 := by omega
  have tile : ∀ t ∈ ts, ∀ w, voxcutMain (F := F) baseFile (cuts.map (·.1)) (cutRegion size t) ⟨[], []⟩ = some w →
      ∃ b' : BinVOX F, BinVOX.read ⟨w.out, true⟩ wholeRegion = some b' ∧
        (Vox b' (k.shift (-t.X) (-t.Y) (-t.Z)) ↔ InDims size size size (k.shift (-t.X) (-t.Y) (-t.Z)) ∧
          Vox bw k ∧ ∀ p ∈ cuts, ¬ Vox p.2 k) := by
    intro t ht w hw
    have n := hnn t ht
    obtain ⟨b', h1, _, _, _, _, h6⟩ := voxcut_tile_exact hF baseFile bw hbw hx.1 hy.1 hz.1 cuts hcw
      (cutRegion size t) ⟨n.1, n.2.1, n.2.2, by show 0 ≤ size; omega, by show 0 ≤ size; omega,
        by show 0 ≤ size; omega⟩ ⟨hs.2, hx.2⟩ ⟨hs.2, hy.2⟩ ⟨hs.2, hz.2⟩ w hw
    refine ⟨b', h1, ?_⟩
    rw [h6]
    unfold cutRegion
    dsimp only
    rw [if_neg s0, if_neg s0, if_neg s0, back]
  constructor
  · rintro ⟨hk, hc⟩
    have hin := read_vox_inDims baseFile bw hbw hx.1 hy.1 hz.1 k hk
    obtain ⟨t, ⟨ht, htin⟩, _⟩ :=
      ((cut_tiles_partition bw.NX bw.NY bw.NZ size hs.1 hfit).2 fuel ts hts).2.2 k hin
    have n := hnn t ht
    unfold InHalfOpen cutRegion at htin
    dsimp only at htin
    obtain ⟨w, hw⟩ := voxcut_tile_succeeds hF baseFile bw hbw hx.1 hy.1 hz.1 cuts hcw
      (cutRegion size t) ⟨n.1, n.2.1, n.2.2, by show 0 ≤ size; omega, by show 0 ≤ size; omega,
        by show 0 ≤ size; omega⟩ k hk ⟨htin.1, htin.2.2.1, htin.2.2.2.2.1⟩ (.inr htin.2.1)
        (.inr htin.2.2.2.1) (.inr htin.2.2.2.2.2) hc
    obtain ⟨b', hb, hv⟩ := tile t ht w hw
    refine ⟨t, w, b', ht, hw, hb, hv.mpr ⟨?_, hk, hc⟩⟩
    unfold InDims Key.shift
    dsimp only
    omega
  · rintro ⟨t, w, b', ht, hw, hb, hv⟩
    obtain ⟨b2, hb2, hv2⟩ := tile t ht w hw
    have : some b' = some b2 := hb.symm.trans hb2
    injection this with this
    rw [this] at hv
    exact (hv2.mp hv).2

/-- Executing the commands stops at the first tile on which voxcut exits fatally. -/
theorem runTiles_stops {F : Type} [GoFloat F] [FloatText F] (baseFile : Input) (cutFiles : List Input)
    (size : Int) (pre post : List Key) (t : Key) (acc : List (Key × Bytes))
    (hp : ∀ u ∈ pre, ∃ w, voxcutMain (F := F) baseFile cutFiles (cutRegion size u) ⟨[], []⟩ = some w)
    (ht : voxcutMain (F := F) baseFile cutFiles (cutRegion size t) ⟨[], []⟩ = none) :
    ∃ done, runTiles (F := F) baseFile cutFiles size (pre ++ t :: post) acc = (acc ++ done, false) ∧
      done.map Prod.fst = pre := by
  induction pre generalizing acc with
  | nil =>
    refine ⟨[], ?_, rfl⟩
    show runTiles (F := F) baseFile cutFiles size (t :: post) acc = _
    unfold runTiles
    rw [ht, List.append_nil]
  | cons u pre ih =>
    obtain ⟨w, hw⟩ := hp u (by simp)
    obtain ⟨done, h1, h2⟩ := ih (acc ++ [(u, w.out)]) (fun v hv => hp v (by simp [hv]))
    refine ⟨(u, w.out) :: done, ?_, by rw [List.map_cons, h2]⟩
    show runTiles (F := F) baseFile cutFiles size (u :: (pre ++ t :: post)) acc = _
    unfold runTiles
    rw [hw]
    dsimp only
    rw [h1]
    simp

theorem runTiles_all {F : Type} [GoFloat F] [FloatText F] (baseFile : Input) (cutFiles : List Input)
    (size : Int) (ts : List Key) (acc : List (Key × Bytes))
    (hp : ∀ u ∈ ts, ∃ w, voxcutMain (F := F) baseFile cutFiles (cutRegion size u) ⟨[], []⟩ = some w) :
    ∃ done, runTiles (F := F) baseFile cutFiles size ts acc = (acc ++ done, true) ∧
      done.map Prod.fst = ts := by
  induction ts generalizing acc with
  | nil => exact ⟨[], by unfold runTiles; rw [List.append_nil], rfl⟩
  | cons u ts ih =>
    obtain ⟨w, hw⟩ := hp u (by simp)
    obtain ⟨done, h1, h2⟩ := ih (acc ++ [(u, w.out)]) (fun v hv => hp v (by simp [hv]))
    refine ⟨(u, w.out) :: done, ?_, by rw [List.map_cons, h2]⟩
    unfold runTiles
    rw [hw]
    dsimp only
    rw [h1]
    simp

/-- **C60 (violated by the code).** voxcut exits fatally on a tile in which nothing survives the cuts (and the
    cut files can be read), so that executing the commands of voxcut-dice stops there: the tiles after
    it are never processed, whatever they contain. -/
theorem cut_dice_stops_at_empty_tile {F : Type} [GoFloat F] [FloatText F] (hF : WhiteCancels F)
    (baseFile : Input) (bw : BinVOX F) (hbw : BinVOX.read baseFile wholeRegion = some bw)
    (hx : 0 < bw.NX) (hy : 0 < bw.NY) (hz : 0 < bw.NZ)
    (cuts : List (Input × BinVOX F)) (hne : cuts ≠ [])
    (hcw : ∀ p ∈ cuts, BinVOX.read p.1 wholeRegion = some p.2 ∧ 0 < p.2.NX ∧ 0 < p.2.NY ∧ 0 < p.2.NZ)
    (size : Int) (hs : 1 ≤ size) (pre post : List Key) (t : Key) (ht : 0 ≤ t.X ∧ 0 ≤ t.Y ∧ 0 ≤ t.Z)
    (hstart : ∀ p ∈ cuts, t.X ≤ p.2.NX ∧ t.Y ≤ p.2.NY ∧ t.Z ≤ p.2.NZ)
    (hpre : ∀ u ∈ pre, ∃ w, voxcutMain (F := F) baseFile (cuts.map (·.1)) (cutRegion size u) ⟨[], []⟩ = some w)
    (hempty : ∀ k, Vox bw k → InClosed (cutRegion size t) k → ∃ p ∈ cuts, Vox p.2 k) :
    voxcutMain (F := F) baseFile (cuts.map (·.1)) (cutRegion size t) ⟨[], []⟩ = none ∧
    ∃ done, runTiles (F := F) baseFile (cuts.map (·.1)) size (pre ++ t :: post) [] = (done, false) ∧
      done.map Prod.fst = pre := by
  have hnn : 0 ≤ (cutRegion size t).sx ∧ 0 ≤ (cutRegion size t).sy ∧ 0 ≤ (cutRegion size t).sz ∧
      0 ≤ (cutRegion size t).cx ∧ 0 ≤ (cutRegion size t).cy ∧ 0 ≤ (cutRegion size t).cz := by
    unfold cutRegion; dsimp only; omega
  have main : voxcutMain (F := F) baseFile (cuts.map (·.1)) (cutRegion size t) ⟨[], []⟩ = none := by
    unfold voxcutMain
    rcases read_region_cases baseFile (cutRegion size t) bw hbw hnn hx hy hz with
      ⟨_, base, hbase, hbwo, _, hbv⟩ | ⟨_, hnone⟩
    swap
    · rw [hnone]
    rw [hbase]
    dsimp only
    generalize hcl : (List.map (fun f => BinVOX.read (F := F) f (cutRegion size t)) (List.map (·.1) cuts)) = cl
    have hclw : ∀ c, some c ∈ cl → WhiteOnly c := by
      intro c hc
      rw [← hcl] at hc
      obtain ⟨f, _, hf⟩ := List.mem_map.mp hc
      exact read_whiteOnly f _ c hf
    have rd : ∀ p ∈ cuts, ∃ c, some c ∈ cl ∧ ∀ k, Vox c k ↔ Vox p.2 k ∧
        InClosed ⟨t.X, t.Y, t.Z, clampCount size p.2.NX, clampCount size p.2.NY, clampCount size p.2.NZ⟩ k := by
      intro p hp
      obtain ⟨hw', px, py, pz⟩ := hcw p hp
      rcases read_region_cases p.1 (cutRegion size t) p.2 hw' hnn px py pz with ⟨_, c, hc, _, _, hcv⟩ | ⟨hout, _⟩
      · refine ⟨c, ?_, hcv⟩
        rw [← hcl, List.map_map]
        exact List.mem_map.mpr ⟨p, hp, hc⟩
      · exact absurd (hstart p hp) hout
    have hno : ¬ ∃ b, voxcutLoop base cl = some b := by
      rw [(voxcutLoop_exact hF cl base hbwo hclw).1]
      rintro (hall | ⟨k, hk, hcut⟩)
      · cases cuts with
        | nil => exact hne rfl
        | cons p cs =>
          obtain ⟨c, hc, _⟩ := rd p (by simp)
          exact absurd (hall _ hc) (by simp)
      · obtain ⟨hkb, hkin⟩ := (hbv k).mp hk
        have hd := read_vox_inDims baseFile bw hbw hx hy hz k hkb
        have hkin' : InClosed (cutRegion size t) k := by
          unfold InClosed cutRegion clampCount at *
          dsimp only at *
          have cl : ∀ n : Int, 0 < n → (if size = 0 ∨ size > n then n else size) ≤ size := by
            intro n hn; split <;> omega
          have c1 := cl bw.NX hx
          have c2 := cl bw.NY hy
          have c3 := cl bw.NZ hz
          obtain ⟨a1, a2, a3, a4, a5, a6⟩ := hkin
          exact ⟨a1, by omega, a3, by omega, a5, by omega⟩
        obtain ⟨p, hp, hpk⟩ := hempty k hkb hkin'
        obtain ⟨c, hc, hcv⟩ := rd p hp
        obtain ⟨hw', px, py, pz⟩ := hcw p hp
        have hpd := read_vox_inDims p.1 p.2 hw' px py pz k hpk
        refine hcut c hc ((hcv k).mpr ⟨hpk, ?_⟩)
        unfold InClosed cutRegion clampCount at *
        unfold InDims at hpd
        dsimp only at *
        obtain ⟨a1, a2, a3, a4, a5, a6⟩ := hkin'
        refine ⟨a1, ?_, a3, ?_, a5, ?_⟩
        · split <;> omega
        · split <;> omega
        · split <;> omega
    cases hl : voxcutLoop base cl with
    | none => rfl
    | some b => exact absurd ⟨b, hl⟩ hno
  refine ⟨main, ?_⟩
  obtain ⟨done, h1, h2⟩ := runTiles_stops (F := F) baseFile (cuts.map (·.1)) size pre post t [] hpre main
  exact ⟨done, by rw [h1, List.nil_append], h2⟩

/-! ## Printed command lines -/

theorem splitSp_ne_nil (s : Bytes) : splitSp s ≠ [] := by
  cases s with
  | nil => simp [splitSp]
  | cons c cs =>
    unfold splitSp
    split
    · simp
    · split <;> simp

theorem splitSp_nosp (s : Bytes) : ∀ w ∈ splitSp s, (32 : UInt8) ∉ w := by
  induction s with
  | nil => intro w hw; simp [splitSp] at hw; subst hw; simp
  | cons c cs ih =>
    intro w hw
    unfold splitSp at hw
    split at hw
    · rw [List.mem_cons] at hw
      rcases hw with rfl | hw
      · simp
      · exact ih w hw
    · rename_i hc
      split at hw
      · rw [List.mem_singleton] at hw; subst hw
        simp only [List.mem_singleton]
        exact fun h => hc h.symm
      · rename_i w0 ws he
        rw [he] at ih
        rw [List.mem_cons] at hw
        rcases hw with rfl | hw
        · rw [List.mem_cons, not_or]
          exact ⟨fun h => hc h.symm, ih w0 (by simp)⟩
        · exact ih w (by simp [hw])

theorem splitSp_word (a : Bytes) (ha : (32 : UInt8) ∉ a) : splitSp a = [a] := by
  induction a with
  | nil => rfl
  | cons c cs ih =>
    rw [List.mem_cons, not_or] at ha
    unfold splitSp
    rw [if_neg (fun h => ha.1 h.symm), ih ha.2]

theorem splitSp_cons (a rest : Bytes) (ha : (32 : UInt8) ∉ a) :
    splitSp (a ++ 32 :: rest) = a :: splitSp rest := by
  induction a with
  | nil =>
    show splitSp (32 :: rest) = _
    rw [splitSp, if_pos rfl]
  | cons c cs ih =>
    rw [List.mem_cons, not_or] at ha
    show splitSp (c :: (cs ++ 32 :: rest)) = _
    rw [splitSp, if_neg (fun h => ha.1 h.symm), ih ha.2]

/-- The line printed in a dry run, split at blanks, gives back the arguments iff no argument contains
    a blank: file names and prefixes with blanks are not quoted. -/
theorem dryrun_line_iff (args : List Bytes) (h : args ≠ []) :
    splitSp (joinSp args) = args ↔ ∀ a ∈ args, (32 : UInt8) ∉ a := by
  constructor
  · intro he a ha
    rw [← he] at ha
    exact splitSp_nosp _ a ha
  · intro hn
    induction args with
    | nil => exact absurd rfl h
    | cons a l ih =>
      cases l with
      | nil => exact splitSp_word a (hn a (by simp))
      | cons b l =>
        show splitSp (a ++ 32 :: joinSp (b :: l)) = _
        rw [splitSp_cons a _ (hn a (by simp)), ih (by simp) (fun c hc => hn c (by simp [hc]))]

/-! ## C39: binvox-dice -/

/-- **C39, one axis.** In exact arithmetic the intervals cut out of `[lo, hi]` by `f ≥ 1` subdivisions
    start at `lo`, end at `hi` and all have length `(hi - lo) / f`.  (Neighbouring intervals abut in
    every arithmetic: the end of one and the start of the next are the same expression.) -/
theorem cutAt_spec (lo hi : ℚ) (f : Int) (hf : 1 ≤ f) :
    cutAt lo hi f 0 = lo ∧ cutAt lo hi f f = hi ∧
    (∀ i : Int, cutAt lo hi f (i + 1) - cutAt lo hi f i = (hi - lo) / f) ∧
    (lo ≤ hi → ∀ i j : Int, i ≤ j → cutAt lo hi f i ≤ cutAt lo hi f j) := by
  have hq : (f : ℚ) ≠ 0 := by exact_mod_cast (by omega : f ≠ 0)
  have hp : (0 : ℚ) < f := by exact_mod_cast (by omega : 0 < f)
  have e : ∀ i : Int, cutAt lo hi f i = lo + (hi - lo) * ((i : ℚ) / f) := fun i => rfl
  refine ⟨?_, ?_, ?_, ?_⟩
  · rw [e]; simp
  · rw [e]; field_simp; ring
  · intro i
    rw [e, e]; push_cast; field_simp; ring
  · intro hl i j hij
    rw [e, e]
    have : (i : ℚ) / f ≤ (j : ℚ) / f := by
      apply div_le_div_of_nonneg_right _ hp.le
      exact_mod_cast hij
    have := mul_le_mul_of_nonneg_left this (sub_nonneg.mpr hl)
    linarith

theorem cutSuffix_injective (m n : Nat) (h : cutSuffix m = cutSuffix n) : m = n := by
  unfold cutSuffix at h
  have us : ascii "_" = [95] := by decide
  rw [us] at h
  split at h <;> split at h
  · injection h with _ h
    have := fmtInt_injective h
    omega
  · cases h
  · cases h
  · omega

/-- **C39.** The boxes of binvox-dice: one per index triple; the box of `(i,j,k)` spans on every axis
    exactly from `cutAt i` to `cutAt (i+1)`; the suffixes are pairwise distinct and the first is empty. -/
theorem binvox_dice_boxes {F : Type} [GoFloat F] (mbb : Box F) (xf yf zf : Int) :
    (∀ (n : Nat) (t : Key), (tileIndices xf yf zf)[n]? = some t →
      ∃ d, (binvoxDice mbb xf yf zf)[n]? = some d ∧
        d.box.Min.X = cutAt mbb.Min.X mbb.Max.X xf t.X ∧ d.box.Max.X = cutAt mbb.Min.X mbb.Max.X xf (t.X + 1) ∧
        d.box.Min.Y = cutAt mbb.Min.Y mbb.Max.Y yf t.Y ∧ d.box.Max.Y = cutAt mbb.Min.Y mbb.Max.Y yf (t.Y + 1) ∧
        d.box.Min.Z = cutAt mbb.Min.Z mbb.Max.Z zf t.Z ∧ d.box.Max.Z = cutAt mbb.Min.Z mbb.Max.Z zf (t.Z + 1) ∧
        (n = 0 → d.suffix = [])) ∧
    (binvoxDice mbb xf yf zf).length = (tileIndices xf yf zf).length ∧
    ((binvoxDice mbb xf yf zf).map DiceBox.suffix).Nodup := by
  refine ⟨?_, ?_, ?_⟩
  · intro n t ht
    unfold binvoxDice
    rw [List.getElem?_map, List.getElem?_zipIdx, ht]
    refine ⟨_, rfl, rfl, rfl, rfl, rfl, rfl, rfl, ?_⟩
    rintro rfl
    rfl
  · unfold binvoxDice; simp
  · unfold binvoxDice
    rw [List.map_map]
    have : (DiceBox.suffix ∘ fun p : Key × Nat =>
      (⟨⟨⟨cutAt mbb.Min.X mbb.Max.X xf p.1.X, cutAt mbb.Min.Y mbb.Max.Y yf p.1.Y,
        cutAt mbb.Min.Z mbb.Max.Z zf p.1.Z⟩,
      ⟨cutAt mbb.Min.X mbb.Max.X xf (p.1.X + 1), cutAt mbb.Min.Y mbb.Max.Y yf (p.1.Y + 1),
        cutAt mbb.Min.Z mbb.Max.Z zf (p.1.Z + 1)⟩⟩, cutSuffix p.2⟩ : DiceBox F)) =
        cutSuffix ∘ Prod.snd := rfl
    rw [this, ← List.map_map, List.zipIdx_map_snd]
    exact (List.nodup_range').map (fun a b e => cutSuffix_injective a b e)

/-- **C39, tiling.** In exact arithmetic every point of the half-open bounding box lies in exactly one of
    the half-open boxes (given by its index triple). -/
theorem binvox_dice_tiling (lo hi : ℚ) (f : Int) (hf : 1 ≤ f) (hl : lo < hi) (x : ℚ) :
    (lo ≤ x ∧ x < hi) ↔ ∃ i ∈ intRange 0 f, (cutAt lo hi f i ≤ x ∧ x < cutAt lo hi f (i + 1)) ∧
      ∀ j ∈ intRange 0 f, cutAt lo hi f j ≤ x ∧ x < cutAt lo hi f (j + 1) → j = i := by
  obtain ⟨h0, h1, h2, h3⟩ := cutAt_spec lo hi f hf
  have mono := h3 hl.le
  have hmem : ∀ i, i ∈ intRange 0 f ↔ 0 ≤ i ∧ i < f := by
    intro i
    unfold intRange
    rw [List.mem_map]
    constructor
    · rintro ⟨n, hn, rfl⟩; rw [List.mem_range] at hn; omega
    · rintro ⟨a, b⟩; exact ⟨i.toNat, by rw [List.mem_range]; omega, by omega⟩
  constructor
  · rintro ⟨a, b⟩
    have hq : (0 : ℚ) < f := by exact_mod_cast (by omega : 0 < f)
    have hd : 0 < hi - lo := sub_pos.mpr hl
    have e : ∀ i : Int, cutAt lo hi f i = lo + (hi - lo) * ((i : ℚ) / f) := fun i => rfl
    set i := ⌊(x - lo) * f / (hi - lo)⌋ with hi_def
    have f1 : (i : ℚ) ≤ (x - lo) * f / (hi - lo) := Int.floor_le _
    have f2 : (x - lo) * f / (hi - lo) < i + 1 := Int.lt_floor_add_one _
    rw [le_div_iff₀ hd] at f1
    rw [div_lt_iff₀ hd] at f2
    have hin : cutAt lo hi f i ≤ x ∧ x < cutAt lo hi f (i + 1) := by
      rw [e, e]
      push_cast
      constructor
      · have : (hi - lo) * ((i : ℚ) / f) ≤ x - lo := by
          rw [mul_div_assoc', div_le_iff₀ hq]; linarith
        linarith
      · have : x - lo < (hi - lo) * (((i : ℚ) + 1) / f) := by
          rw [mul_div_assoc', lt_div_iff₀ hq]; linarith
        linarith
    have r0 : 0 ≤ i := by
      rw [hi_def]; apply Int.floor_nonneg.mpr
      exact div_nonneg (mul_nonneg (sub_nonneg.mpr a) hq.le) hd.le
    have r1 : i < f := by
      by_contra hcon
      have := mono f i (by omega)
      rw [h1] at this
      linarith [hin.1]
    refine ⟨i, (hmem i).mpr ⟨r0, r1⟩, hin, ?_⟩
    rintro j _ ⟨j1, j2⟩
    rcases lt_trichotomy j i with hji | rfl | hji
    · have := mono (j + 1) i (by omega); linarith [hin.1]
    · rfl
    · have := mono (i + 1) j (by omega); linarith [hin.2]
  · rintro ⟨i, hi', ⟨a, b⟩, _⟩
    rw [hmem] at hi'
    have m1 := mono 0 i hi'.1
    have m2 := mono (i + 1) f (by omega)
    rw [h0] at m1
    rw [h1] at m2
    exact ⟨m1.trans a, lt_of_lt_of_le b m2⟩

/-- **C39, tiling of space.** In exact arithmetic every point of the half-open bounding box lies in exactly one of the
    half-open boxes that binvox-dice makes, and no other point lies in any of them. -/
theorem binvox_dice_tiling_space (mbb : Box ℚ) {xf yf zf : Int} (hx : 1 ≤ xf) (hy : 1 ≤ yf) (hz : 1 ≤ zf)
    (lx : mbb.Min.X < mbb.Max.X) (ly : mbb.Min.Y < mbb.Max.Y) (lz : mbb.Min.Z < mbb.Max.Z) (p : BinVOX.Vec ℚ) :
    ((mbb.Min.X ≤ p.X ∧ p.X < mbb.Max.X) ∧ (mbb.Min.Y ≤ p.Y ∧ p.Y < mbb.Max.Y) ∧ (mbb.Min.Z ≤ p.Z ∧ p.Z < mbb.Max.Z)) ↔
    ∃ d ∈ binvoxDice mbb xf yf zf,
      ((d.box.Min.X ≤ p.X ∧ p.X < d.box.Max.X) ∧ (d.box.Min.Y ≤ p.Y ∧ p.Y < d.box.Max.Y) ∧
        (d.box.Min.Z ≤ p.Z ∧ p.Z < d.box.Max.Z)) ∧
      ∀ d' ∈ binvoxDice mbb xf yf zf,
        ((d'.box.Min.X ≤ p.X ∧ p.X < d'.box.Max.X) ∧ (d'.box.Min.Y ≤ p.Y ∧ p.Y < d'.box.Max.Y) ∧
          (d'.box.Min.Z ≤ p.Z ∧ p.Z < d'.box.Max.Z)) → d' = d := by
  have hmem : ∀ (d : DiceBox ℚ), d ∈ binvoxDice mbb xf yf zf ↔ ∃ (n : Nat) (t : Key), (tileIndices xf yf zf)[n]? = some t ∧
      d = ⟨⟨⟨cutAt mbb.Min.X mbb.Max.X xf t.X, cutAt mbb.Min.Y mbb.Max.Y yf t.Y, cutAt mbb.Min.Z mbb.Max.Z zf t.Z⟩,
        ⟨cutAt mbb.Min.X mbb.Max.X xf (t.X + 1), cutAt mbb.Min.Y mbb.Max.Y yf (t.Y + 1),
          cutAt mbb.Min.Z mbb.Max.Z zf (t.Z + 1)⟩⟩, cutSuffix n⟩ := by
    intro d
    unfold binvoxDice
    rw [List.mem_map]
    constructor
    · rintro ⟨⟨t, n⟩, hm, rfl⟩
      exact ⟨n, t, by simpa [List.mem_zipIdx_iff_getElem?] using hm, rfl⟩
    · rintro ⟨n, t, ht, rfl⟩
      exact ⟨(t, n), by simpa [List.mem_zipIdx_iff_getElem?] using ht, rfl⟩
  have hmi : ∀ (f i : Int), i ∈ intRange 0 f ↔ 0 ≤ i ∧ i < f := by
    intro f i
    unfold intRange
    rw [List.mem_map]
    constructor
    · rintro ⟨n, hn, rfl⟩; rw [List.mem_range] at hn; omega
    · rintro ⟨a, b⟩; exact ⟨i.toNat, by rw [List.mem_range]; omega, by omega⟩
  have tx := binvox_dice_tiling mbb.Min.X mbb.Max.X xf hx lx p.X
  have ty := binvox_dice_tiling mbb.Min.Y mbb.Max.Y yf hy ly p.Y
  have tz := binvox_dice_tiling mbb.Min.Z mbb.Max.Z zf hz lz p.Z
  constructor
  · rintro ⟨px, py, pz⟩
    obtain ⟨i, mi, ini, ui⟩ := tx.mp px
    obtain ⟨j, mj, inj, uj⟩ := ty.mp py
    obtain ⟨k, mk, ink, uk⟩ := tz.mp pz
    have ht : (⟨i, j, k⟩ : Key) ∈ tileIndices xf yf zf := by
      rw [mem_tileIndices]
      rw [hmi] at mi mj mk
      exact ⟨mi.1, mi.2, mj.1, mj.2, mk.1, mk.2⟩
    obtain ⟨n, hn⟩ := List.mem_iff_getElem?.mp ht
    refine ⟨_, (hmem _).mpr ⟨n, _, hn, rfl⟩, ⟨ini, inj, ink⟩, ?_⟩
    rintro d' hd' ⟨a, b, c⟩
    obtain ⟨n', t', hn', rfl⟩ := (hmem _).mp hd'
    have hin : InDims xf yf zf t' := (mem_tileIndices _ _ _ _).mp (List.mem_of_getElem? hn')
    obtain ⟨h1, h2, h3, h4, h5, h6⟩ := hin
    have e1 := ui t'.X ((hmi _ _).mpr ⟨h1, h2⟩) a
    have e2 := uj t'.Y ((hmi _ _).mpr ⟨h3, h4⟩) b
    have e3 := uk t'.Z ((hmi _ _).mpr ⟨h5, h6⟩) c
    have e : t' = ⟨i, j, k⟩ := by
      obtain ⟨a1, a2, a3⟩ := t'
      dsimp only at e1 e2 e3
      rw [e1, e2, e3]
    subst e
    have hlt := (List.getElem?_eq_some_iff.mp hn').1
    have : n' = n := (List.getElem?_inj hlt (tileIndices_nodup xf yf zf)).mp (hn'.trans hn.symm)
    rw [this]
  · rintro ⟨d, hd, ⟨a, b, c⟩, -⟩
    obtain ⟨n, t, hn, rfl⟩ := (hmem _).mp hd
    have hin : InDims xf yf zf t := (mem_tileIndices _ _ _ _).mp (List.mem_of_getElem? hn)
    obtain ⟨h1, h2, h3, h4, h5, h6⟩ := hin
    obtain ⟨x0, x1, -, x3⟩ := cutAt_spec mbb.Min.X mbb.Max.X xf hx
    obtain ⟨y0, y1, -, y3⟩ := cutAt_spec mbb.Min.Y mbb.Max.Y yf hy
    obtain ⟨z0, z1, -, z3⟩ := cutAt_spec mbb.Min.Z mbb.Max.Z zf hz
    have gx := x3 lx.le
    have gy := y3 ly.le
    have gz := z3 lz.le
    refine ⟨⟨?_, ?_⟩, ⟨?_, ?_⟩, ⟨?_, ?_⟩⟩
    · exact le_trans (le_trans (le_of_eq x0.symm) (gx 0 t.X h1)) a.1
    · exact lt_of_lt_of_le a.2 (le_trans (gx (t.X + 1) xf (by omega)) (le_of_eq x1))
    · exact le_trans (le_trans (le_of_eq y0.symm) (gy 0 t.Y h3)) b.1
    · exact lt_of_lt_of_le b.2 (le_trans (gy (t.Y + 1) yf (by omega)) (le_of_eq y1))
    · exact le_trans (le_trans (le_of_eq z0.symm) (gz 0 t.Z h5)) c.1
    · exact lt_of_lt_of_le c.2 (le_trans (gz (t.Z + 1) zf (by omega)) (le_of_eq z1))

/-- A plate cut into two by three by one boxes. -/
example := binvox_dice_tiling_space ⟨⟨-80, -80, -2⟩, ⟨80, 80, 1⟩⟩ (xf := 2) (yf := 3) (zf := 1) (by decide) (by decide) (by decide)
  (by norm_num) (by norm_num) (by norm_num) ⟨0, -27, 0⟩

/-! ## Concrete cases -/

/-- 5x3x1 voxels in tiles of 2: six tiles. -/
example : diceStarts 10 5 3 1 2 =
    some [⟨0,0,0⟩, ⟨2,0,0⟩, ⟨4,0,0⟩, ⟨0,2,0⟩, ⟨2,2,0⟩, ⟨4,2,0⟩] := by decide

example : cutName (ascii "o") (ascii ".stl") 256 ⟨512, 0, 12345⟩ =
    ascii "o-0512-0000-12345-0256-0256-0256.stl" := by decide

/-- A name with a blank is not read back. -/
example : splitSp (joinSp [ascii "voxcut", ascii "my file"]) ≠ [ascii "voxcut", ascii "my file"] := by
  decide

example : ((binvoxDice (F := ℚ) ⟨⟨-80, -80, -2⟩, ⟨80, 80, 1⟩⟩ 2 1 1).map fun d => (d.box.Min.X, d.box.Max.X, d.suffix)) =
    [(-80, 0, []), (0, 80, ascii "_1")] := by decide +kernel

/-- 3x1x1 voxels of which only the last is set, and a cut with only the first set. -/
def exDiceBase : BinVOX ℚ := ⟨3, 1, 1, 0, 0, 0, 3, some [(⟨2, 0, 0⟩, ())], none⟩
@[inherit_doc exDiceBase]
def exDiceCut : BinVOX ℚ := ⟨3, 1, 1, 0, 0, 0, 3, some [(⟨0, 0, 0⟩, ())], none⟩

/-- Their files. -/
def exDiceFile (b : BinVOX ℚ) : Input := ⟨(b.write ⟨[], []⟩ wholeRegion).1.out, true⟩

/-- Diced with size 1, voxcut exits fatally on the first tile although the third tile holds a voxel; so
    nothing at all is processed. -/
example : (runTiles (F := ℚ) (exDiceFile exDiceBase) [exDiceFile exDiceCut] 1
      [⟨0, 0, 0⟩, ⟨1, 0, 0⟩, ⟨2, 0, 0⟩] []).1 = [] ∧
    (runTiles (F := ℚ) (exDiceFile exDiceBase) [exDiceFile exDiceCut] 1
      [⟨0, 0, 0⟩, ⟨1, 0, 0⟩, ⟨2, 0, 0⟩] []).2 = false ∧
    (runTiles (F := ℚ) (exDiceFile exDiceBase) [exDiceFile exDiceCut] 1 [⟨2, 0, 0⟩] []).2 = true := by
  decide +kernel

/-! ## More examples -/

theorem exDiceFile_reads (b : BinVOX ℚ) (hne : b.white ≠ []) (hd : b.NX = 3 ∧ b.NY = 1 ∧ b.NZ = 1) :
    ∃ bw : BinVOX ℚ, BinVOX.read (exDiceFile b) wholeRegion = some bw ∧ bw.NX = 3 ∧ bw.NY = 1 ∧ bw.NZ = 1 ∧
      ∀ k, Vox bw k ↔ Vox b k ∧ InDims 3 1 1 k := by
  obtain ⟨d1, d2, d3⟩ := hd
  have e : writeRegion b.NX b.NY b.NZ wholeRegion = ⟨0, 0, 0, 3, 1, 1⟩ := by rw [d1, d2, d3]; decide
  have h := write_region_read b hne wholeRegion
  simp only [e] at h
  obtain ⟨bw, h2, h3, h4, h5, -, -, -, -, -, -, h6⟩ := h (by decide) (by decide) (by decide)
  refine ⟨bw, h2, h3, h4, h5, fun k => (h6 k).trans ?_⟩
  have : k.shift 0 0 0 = k := by cases k; simp [Key.shift]
  rw [this]
  exact And.comm

example := cut_tiles_partition 5 3 1 2 (by decide)

/-- Flags of `voxcut-dice -size s -binvox o base.binvox cut.binvox`. -/
def exCutFlags (s : Int) : CutDiceFlags :=
  { size := s, binvoxPrefix := ascii "o", stlPrefix := [], voxPrefix := [], files := [ascii "base.binvox", ascii "cut.binvox"] }

/-- Sizes 0 and 2. -/
example : ∃ b : BinVOX ℚ, BinVOX.Read (F := ℚ) (some (exDiceFile exDiceBase)) ⟨0, 0, 0, 1, 1, 1⟩ = some b ∧ b.NZ = 1 ∧
    (∀ fuel, cutDice (F := ℚ) fuel (exCutFlags 0) (some (exDiceFile exDiceBase)) = .endless) ∧
    ∃ fuel ts, cutDice (F := ℚ) fuel (exCutFlags 2) (some (exDiceFile exDiceBase)) = .tiles ts ∧ diceStarts fuel 3 1 1 2 = some ts := by
  obtain ⟨bw, hbw, e1, e2, e3, -⟩ := exDiceFile_reads exDiceBase (by decide) ⟨rfl, rfl, rfl⟩
  obtain ⟨b, hb, ⟨d1, d2, d3, -⟩, -⟩ := read_subregion_closed _ ⟨0, 0, 0, 1, 1, 1⟩ bw hbw (by decide) (by rw [e1, e2, e3]; decide)
    (by omega) (by omega) (by omega)
  have hb' : BinVOX.Read (F := ℚ) (some (exDiceFile exDiceBase)) ⟨0, 0, 0, 1, 1, 1⟩ = some b := hb
  have h2 := (cut_dice_cases (exCutFlags 2) _ b (by decide) (by decide) hb' (by decide) (by rw [d1, d2, d3, e1, e2, e3]; exact tilesFit_of_le (by decide) (by decide) (by decide))).2 (by
    show ¬ (b.NX < 2 ∧ b.NY < 2 ∧ b.NZ < 2)
    omega)
  rw [d1, d2, d3, e1, e2, e3] at h2
  exact ⟨b, hb', by omega, cut_dice_endless (exCutFlags 0) _ b (by decide) (by decide) hb' (by omega) (by decide), h2⟩

example := cut_names_distinct (ascii "o") (ascii ".stl") 256 ⟨512, 0, 0⟩ ⟨512, 0, 0⟩ (by decide) (by decide) rfl

/-- The tiles of size 1 of this job: `cut_dice_exact`, `cut_dice_stops_at_empty_tile`, `runTiles_stops` and `runTiles_all`
    apply; the voxel `(2, 0, 0)` is left, in the third tile. -/
example : ∃ bw cw : BinVOX ℚ, BinVOX.read (exDiceFile exDiceBase) wholeRegion = some bw ∧ BinVOX.read (exDiceFile exDiceCut) wholeRegion = some cw ∧
    (Vox bw ⟨2, 0, 0⟩ ∧ ∀ p ∈ [(exDiceFile exDiceCut, cw)], ¬ Vox p.2 ⟨2, 0, 0⟩) ∧
    voxcutMain (F := ℚ) (exDiceFile exDiceBase) [exDiceFile exDiceCut] (cutRegion 1 ⟨0, 0, 0⟩) ⟨[], []⟩ = none ∧
    ∃ done, runTiles (F := ℚ) (exDiceFile exDiceBase) [exDiceFile exDiceCut] 1 [⟨2, 0, 0⟩] [] = ([] ++ done, true) ∧
      done.map Prod.fst = [⟨2, 0, 0⟩] := by
  obtain ⟨bw, hbw, e1, e2, e3, hv⟩ := exDiceFile_reads exDiceBase (by decide) ⟨rfl, rfl, rfl⟩
  obtain ⟨cw, hcw, c1, c2, c3, hc⟩ := exDiceFile_reads exDiceCut (by decide) ⟨rfl, rfl, rfl⟩
  have hts : diceStarts 20 3 1 1 1 = some [⟨0, 0, 0⟩, ⟨1, 0, 0⟩, ⟨2, 0, 0⟩] := by decide
  have hcs : ∀ p ∈ [(exDiceFile exDiceCut, cw)], BinVOX.read p.1 wholeRegion = some p.2 ∧ 0 < p.2.NX ∧ 0 < p.2.NY ∧ 0 < p.2.NZ := by
    intro p hp
    rw [List.mem_singleton] at hp
    subst hp
    exact ⟨hcw, by show 0 < cw.NX; omega, by show 0 < cw.NY; omega, by show 0 < cw.NZ; omega⟩
  have hleft : Vox bw ⟨2, 0, 0⟩ ∧ ∀ p ∈ [(exDiceFile exDiceCut, cw)], ¬ Vox p.2 ⟨2, 0, 0⟩ := by
    refine ⟨(hv _).mpr ⟨?_, ?_⟩, ?_⟩
    · unfold Vox; decide
    · unfold InDims; decide
    · intro p hp
      rw [List.mem_singleton] at hp
      subst hp
      intro h
      have := ((hc _).mp h).1
      revert this
      unfold Vox
      decide
  have ex := (cut_dice_exact whiteCancels_rat (exDiceFile exDiceBase) bw hbw (by rw [e1]; decide) (by rw [e2]; decide) (by rw [e3]; decide)
    [(exDiceFile exDiceCut, cw)] hcs 1 (by decide) (by rw [e1, e2, e3]; exact tilesFit_of_le (by decide) (by decide) (by decide)) 20 _ (by rw [e1, e2, e3]; exact hts) ⟨2, 0, 0⟩).mp hleft
  have stop := cut_dice_stops_at_empty_tile whiteCancels_rat (exDiceFile exDiceBase) bw hbw (by omega) (by omega) (by omega)
    [(exDiceFile exDiceCut, cw)] (by simp) hcs 1 (by decide) [] [⟨1, 0, 0⟩, ⟨2, 0, 0⟩] ⟨0, 0, 0⟩ (by decide) (by
      intro p hp
      rw [List.mem_singleton] at hp
      subst hp
      exact ⟨by show 0 ≤ cw.NX; omega, by show 0 ≤ cw.NY; omega, by show 0 ≤ cw.NZ; omega⟩) (fun u hu => (List.not_mem_nil hu).elim) (by
      intro k hk hin
      have h2 : k = ⟨2, 0, 0⟩ := by
        have := ((hv k).mp hk).1
        unfold Vox at this
        simpa [exDiceBase, BinVOX.white, mapOf, ← GoMap.mem_keys_iff, GoMap.keys] using this
      subst h2
      unfold InClosed cutRegion at hin
      simp at hin)
  have stop' := runTiles_stops (F := ℚ) (exDiceFile exDiceBase) [exDiceFile exDiceCut] 1 [] [⟨1, 0, 0⟩, ⟨2, 0, 0⟩] ⟨0, 0, 0⟩ []
    (fun u hu => (List.not_mem_nil hu).elim) stop.1
  refine ⟨bw, cw, hbw, hcw, hleft, stop.1, runTiles_all (F := ℚ) _ _ 1 [⟨2, 0, 0⟩] [] ?_⟩
  intro u hu
  rw [List.mem_singleton] at hu
  subst hu
  exact Option.isSome_iff_exists.mp (by decide +kernel)

example := dryrun_line_iff [ascii "voxcut", ascii "-ostl", ascii "a b"] (by decide)
example := cutAt_spec (-80) 80 3 (by decide)
example := cutSuffix_injective 12 12 rfl
example := binvox_dice_tiling (-80) 80 3 (by decide) (by norm_num) 79

end StlDice
