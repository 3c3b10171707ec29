import Verif.Props.Voxcut

/-! # C56: voxcut on a tile, from files to file -/

namespace StlDice
open Spec
variable {F : Type}

theorem read_whiteOnly [FloatText F] (inp : Input) (r : Region) (b : BinVOX F)
    (h : BinVOX.read inp r = some b) : WhiteOnly b := by
  obtain ⟨_, _, _, _, _, _, _, _, _, _, rfl⟩ := (read_iff inp r b).mp h
  rfl

theorem read_vox_inDims [FloatText F] (inp : Input) (b : BinVOX F)
    (h : BinVOX.read inp wholeRegion = some b) (hx : 0 < b.NX) (hy : 0 < b.NY) (hz : 0 < b.NZ) (k : Key)
    (hk : Vox b k) : InDims b.NX b.NY b.NZ k := by
  obtain ⟨_, _, hd, hb, ps, e1, e2, _, _, _, rfl⟩ := (read_iff inp wholeRegion b).mp h
  exact ((read_whole_vox inp _ hd hb ps e1 e2 h hx hy hz k).mp hk).1

/-- Reading a region of a well-formed file: rejected exactly when the start lies outside. -/
theorem read_region_cases [FloatText F] (inp : Input) (r : Region) (bw : BinVOX F)
    (hw : BinVOX.read inp wholeRegion = some bw)
    (hn : 0 ≤ r.sx ∧ 0 ≤ r.sy ∧ 0 ≤ r.sz ∧ 0 ≤ r.cx ∧ 0 ≤ r.cy ∧ 0 ≤ r.cz)
    (hx : 0 < bw.NX) (hy : 0 < bw.NY) (hz : 0 < bw.NZ) :
    ((r.sx ≤ bw.NX ∧ r.sy ≤ bw.NY ∧ r.sz ≤ bw.NZ) ∧ ∃ b, BinVOX.read inp r = some b ∧ WhiteOnly b ∧
      (b.NX = bw.NX ∧ b.NY = bw.NY ∧ b.NZ = bw.NZ ∧ b.TX = bw.TX ∧ b.TY = bw.TY ∧ b.TZ = bw.TZ ∧
        b.Scale = bw.Scale) ∧
      ∀ k, Vox b k ↔ Vox bw k ∧ InClosed ⟨r.sx, r.sy, r.sz, clampCount r.cx bw.NX,
        clampCount r.cy bw.NY, clampCount r.cz bw.NZ⟩ k) ∨
    (¬ (r.sx ≤ bw.NX ∧ r.sy ≤ bw.NY ∧ r.sz ≤ bw.NZ) ∧ BinVOX.read (F := F) inp r = none) := by
  by_cases hs : r.sx ≤ bw.NX ∧ r.sy ≤ bw.NY ∧ r.sz ≤ bw.NZ
  · left
    obtain ⟨b, hb, h1, h2⟩ := read_subregion_closed inp r bw hw hn hs hx hy hz
    exact ⟨hs, b, hb, read_whiteOnly inp r b hb, h1, h2⟩
  · right
    refine ⟨hs, ?_⟩
    cases hr : BinVOX.read (F := F) inp r with
    | none => rfl
    | some b =>
      exfalso
      obtain ⟨_, _, h', hb', ps', e1, e2, hs', _, _, _⟩ := (read_iff inp r b).mp hr
      obtain ⟨_, _, h, hb2, ps, e3, e4, _, _, _, rfl⟩ := (read_iff inp wholeRegion bw).mp hw
      obtain ⟨rfl, _, _⟩ := isHeader_unique isLine_binvoxMagic e4 e2 (e3.symm.trans e1)
      exact hs hs'

/-- A voxel of the half-open tile inside the model's dimensions lies in the closed box that is read. -/
theorem closed_of_halfOpen {nx ny nz : Int} {r : Region} {k : Key}
    (hn : 0 ≤ r.sx ∧ 0 ≤ r.sy ∧ 0 ≤ r.sz ∧ 0 ≤ r.cx ∧ 0 ≤ r.cy ∧ 0 ≤ r.cz)
    (hd : InDims nx ny nz k) (hs : r.sx ≤ k.X ∧ r.sy ≤ k.Y ∧ r.sz ≤ k.Z)
    (hx : r.cx = 0 ∨ k.X < r.sx + r.cx) (hy : r.cy = 0 ∨ k.Y < r.sy + r.cy)
    (hz : r.cz = 0 ∨ k.Z < r.sz + r.cz) :
    InClosed ⟨r.sx, r.sy, r.sz, clampCount r.cx nx, clampCount r.cy ny, clampCount r.cz nz⟩ k := by
  obtain ⟨a1, a2, a3, a4, a5, a6⟩ := hd
  unfold InClosed clampCount
  dsimp only
  refine ⟨by omega, ?_, by omega, ?_, by omega, ?_⟩
  · split <;> omega
  · split <;> omega
  · split <;> omega

/-- C56: voxcut run on a tile (start `s`, counts `c`, 0 = all) of well-formed files writes a file
    holding exactly the base voxels of the half-open tile that no cut file has, shifted by `-s`; cuts
    whose file does not reach the tile are skipped without effect.  (The read of the base takes one
    layer too many, which the write of the region drops again.) -/
theorem voxcut_tile_exact [GoFloat F] [FloatText F] [LawfulFloatText F] (hF : WhiteCancels F)
    (baseFile : Input) (bw : BinVOX F) (hbw : BinVOX.read baseFile wholeRegion = some bw)
    (hx : 0 < bw.NX) (hy : 0 < bw.NY) (hz : 0 < bw.NZ)
    (cuts : List (Input × BinVOX F))
    (hcw : ∀ p ∈ cuts, BinVOX.read p.1 wholeRegion = some p.2 ∧ 0 < p.2.NX ∧ 0 < p.2.NY ∧ 0 < p.2.NZ)
    (r : Region) (hn : 0 ≤ r.sx ∧ 0 ≤ r.sy ∧ 0 ≤ r.sz ∧ 0 ≤ r.cx ∧ 0 ≤ r.cy ∧ 0 ≤ r.cz)
    (hmx : r.cx ≤ maxInt ∧ bw.NX ≤ maxInt) (hmy : r.cy ≤ maxInt ∧ bw.NY ≤ maxInt)
    (hmz : r.cz ≤ maxInt ∧ bw.NZ ≤ maxInt)
    (w : Sink) (hmain : voxcutMain (F := F) baseFile (cuts.map (·.1)) r ⟨[], []⟩ = some w) :
    ∃ b' : BinVOX F, BinVOX.read ⟨w.out, true⟩ wholeRegion = some b' ∧
      b'.TX = bw.TX ∧ b'.TY = bw.TY ∧ b'.TZ = bw.TZ ∧ b'.Scale = bw.Scale ∧
      ∀ k, Vox b' k ↔
        InDims (if r.cx = 0 then bw.NX else r.cx) (if r.cy = 0 then bw.NY else r.cy)
          (if r.cz = 0 then bw.NZ else r.cz) k ∧
        Vox bw (k.shift r.sx r.sy r.sz) ∧ ∀ p ∈ cuts, ¬ Vox p.2 (k.shift r.sx r.sy r.sz) := by
  unfold voxcutMain at hmain
  rcases read_region_cases baseFile r bw hbw hn hx hy hz with ⟨hs, base, hbase, hbwo, hh, hbv⟩ | ⟨_, hnone⟩
  swap
  · rw [hnone] at hmain; cases hmain
  rw [hbase] at hmain
  simp only at hmain
  generalize hcl : (List.map (fun f => BinVOX.read (F := F) f r) (List.map (·.1) cuts)) = cl at hmain
  have hclw : ∀ c, some c ∈ cl → WhiteOnly c := by
    intro c hc
    rw [← hcl] at hc
    obtain ⟨f, _, hf⟩ := List.mem_map.mp hc
    exact read_whiteOnly f r c hf
  obtain ⟨_, hex⟩ := voxcutLoop_exact hF cl base hbwo hclw
  cases hloop : voxcutLoop base cl with
  | none => rw [hloop] at hmain; cases hmain
  | some b =>
    rw [hloop] at hmain
    simp only at hmain
    obtain ⟨⟨g1, g2, g3, g4, g5, g6, g7, _⟩, hvox⟩ := hex b hloop
    have hw : w = (b.write ⟨[], []⟩ r).1 := by
      split at hmain
      · cases hmain
      · rename_i heq; rw [heq]; cases hmain; rfl
    have eN : b.NX = bw.NX ∧ b.NY = bw.NY ∧ b.NZ = bw.NZ := by
      rw [g1, g2, g3]; exact ⟨hh.1, hh.2.1, hh.2.2.1⟩
    -- membership in the result for voxels of the half-open tile
    have hcore : ∀ k : Key, InDims (if r.cx = 0 then bw.NX else r.cx) (if r.cy = 0 then bw.NY else r.cy)
          (if r.cz = 0 then bw.NZ else r.cz) k →
        (Vox b (k.shift r.sx r.sy r.sz) ↔ Vox bw (k.shift r.sx r.sy r.sz) ∧
          ∀ p ∈ cuts, ¬ Vox p.2 (k.shift r.sx r.sy r.sz)) := by
      intro k hk
      obtain ⟨a1, a2, a3, a4, a5, a6⟩ := hk
      have s0 : r.sx ≤ (k.shift r.sx r.sy r.sz).X ∧ r.sy ≤ (k.shift r.sx r.sy r.sz).Y ∧
          r.sz ≤ (k.shift r.sx r.sy r.sz).Z := by
        simp only [Key.shift]; omega
      have s1 : r.cx = 0 ∨ (k.shift r.sx r.sy r.sz).X < r.sx + r.cx := by
        simp only [Key.shift]
        by_cases h : r.cx = 0
        · exact Or.inl h
        · rw [if_neg h] at a2; right; omega
      have s2 : r.cy = 0 ∨ (k.shift r.sx r.sy r.sz).Y < r.sy + r.cy := by
        simp only [Key.shift]
        by_cases h : r.cy = 0
        · exact Or.inl h
        · rw [if_neg h] at a4; right; omega
      have s3 : r.cz = 0 ∨ (k.shift r.sx r.sy r.sz).Z < r.sz + r.cz := by
        simp only [Key.shift]
        by_cases h : r.cz = 0
        · exact Or.inl h
        · rw [if_neg h] at a6; right; omega
      rw [hvox, hbv]
      have hbase_iff : (Vox bw (k.shift r.sx r.sy r.sz) ∧ InClosed ⟨r.sx, r.sy, r.sz, clampCount r.cx bw.NX,
        clampCount r.cy bw.NY, clampCount r.cz bw.NZ⟩ (k.shift r.sx r.sy r.sz)) ↔
          Vox bw (k.shift r.sx r.sy r.sz) := by
        constructor
        · exact And.left
        · intro h
          exact ⟨h, closed_of_halfOpen hn (read_vox_inDims baseFile bw hbw hx hy hz _ h) s0 s1 s2 s3⟩
      rw [hbase_iff]
      have hcuts : (∀ c, some c ∈ cl → ¬ Vox c (k.shift r.sx r.sy r.sz)) ↔
          ∀ p ∈ cuts, ¬ Vox p.2 (k.shift r.sx r.sy r.sz) := by
        constructor
        · intro h p hp hv
          obtain ⟨hw', px, py, pz⟩ := hcw p hp
          rcases read_region_cases p.1 r p.2 hw' hn px py pz with ⟨_, c, hc, _, _, hcv⟩ | ⟨hout, _⟩
          · apply h c (by rw [← hcl, List.map_map]; exact List.mem_map.mpr ⟨p, hp, hc⟩)
            rw [hcv]
            exact ⟨hv, closed_of_halfOpen hn (read_vox_inDims p.1 p.2 hw' px py pz _ hv) s0 s1 s2 s3⟩
          · obtain ⟨b1, b2, b3, b4, b5, b6⟩ := read_vox_inDims p.1 p.2 hw' px py pz _ hv
            apply hout; omega
        · intro h c hc hv
          rw [← hcl, List.map_map] at hc
          obtain ⟨p, hp, hpc⟩ := List.mem_map.mp hc
          obtain ⟨hw', px, py, pz⟩ := hcw p hp
          rcases read_region_cases p.1 r p.2 hw' hn px py pz with ⟨_, c', hc', _, _, hcv⟩ | ⟨_, hnone⟩
          · simp only [Function.comp] at hpc
            rw [hc'] at hpc; cases hpc
            exact h p hp ((hcv _).mp hv).1
          · simp only [Function.comp] at hpc
            rw [hnone] at hpc; cases hpc
      rw [hcuts]
    by_cases hne : b.white = []
    · obtain ⟨b', hr', _, _, _, _, t4, t5, t6, t7, hempty⟩ := write_read_empty b hne r
      refine ⟨b', by rw [hw]; exact hr', by rw [t4, g4, hh.2.2.2.1], by rw [t5, g5, hh.2.2.2.2.1],
        by rw [t6, g6, hh.2.2.2.2.2.1], by rw [t7, g7, hh.2.2.2.2.2.2], ?_⟩
      intro k
      constructor
      · intro h; exact absurd h (hempty k)
      · rintro ⟨hin, h⟩
        have := (hcore k hin).mpr h
        unfold Vox at this; rw [hne] at this; simp at this
    · have hwr := write_region_read b hne r
      have hr0 : ∀ c n : Int, 0 ≤ c → 0 < n → 0 ≤ (if c = 0 then n else c) := by
        intro c n h1 h2; split <;> omega
      have hrm : ∀ c n : Int, c ≤ maxInt ∧ n ≤ maxInt → (if c = 0 then n else c) ≤ maxInt := by
        intro c n h; split
        · exact h.2
        · exact h.1
      simp only [writeRegion, eN.1, eN.2.1, eN.2.2] at hwr
      obtain ⟨b', hr', _, _, _, t4, t5, t6, t7, _, _, hv⟩ := hwr
        ⟨hr0 _ _ hn.2.2.2.1 hx, hrm _ _ hmx⟩ ⟨hr0 _ _ hn.2.2.2.2.1 hy, hrm _ _ hmy⟩
        ⟨hr0 _ _ hn.2.2.2.2.2 hz, hrm _ _ hmz⟩
      refine ⟨b', by rw [hw]; exact hr', by rw [t4, g4, hh.2.2.2.1], by rw [t5, g5, hh.2.2.2.2.1],
        by rw [t6, g6, hh.2.2.2.2.2.1], by rw [t7, g7, hh.2.2.2.2.2.2], ?_⟩
      intro k
      rw [hv]
      constructor
      · rintro ⟨h1, h2⟩; exact ⟨h1, (hcore k h1).mp h2⟩
      · rintro ⟨h1, h2⟩; exact ⟨h1, (hcore k h1).mpr h2⟩

/-- C56 (success): voxcut does not exit fatally when the start lies in the base and some base voxel of
    the tile is left by the cuts. -/
theorem voxcut_tile_succeeds [GoFloat F] [FloatText F] (hF : WhiteCancels F)
    (baseFile : Input) (bw : BinVOX F) (hbw : BinVOX.read baseFile wholeRegion = some bw)
    (hx : 0 < bw.NX) (hy : 0 < bw.NY) (hz : 0 < bw.NZ)
    (cuts : List (Input × BinVOX F))
    (hcw : ∀ p ∈ cuts, BinVOX.read p.1 wholeRegion = some p.2 ∧ 0 < p.2.NX ∧ 0 < p.2.NY ∧ 0 < p.2.NZ)
    (r : Region) (hn : 0 ≤ r.sx ∧ 0 ≤ r.sy ∧ 0 ≤ r.sz ∧ 0 ≤ r.cx ∧ 0 ≤ r.cy ∧ 0 ≤ r.cz)
    (k : Key) (hk : Vox bw k) (hs : r.sx ≤ k.X ∧ r.sy ≤ k.Y ∧ r.sz ≤ k.Z)
    (s1 : r.cx = 0 ∨ k.X < r.sx + r.cx) (s2 : r.cy = 0 ∨ k.Y < r.sy + r.cy)
    (s3 : r.cz = 0 ∨ k.Z < r.sz + r.cz) (hcut : ∀ p ∈ cuts, ¬ Vox p.2 k) :
    ∃ w, voxcutMain (F := F) baseFile (cuts.map (·.1)) r ⟨[], []⟩ = some w := by
  have hin := read_vox_inDims baseFile bw hbw hx hy hz k hk
  have hst : r.sx ≤ bw.NX ∧ r.sy ≤ bw.NY ∧ r.sz ≤ bw.NZ := by
    obtain ⟨a1, a2, a3, a4, a5, a6⟩ := hin; omega
  rcases read_region_cases baseFile r bw hbw hn hx hy hz with ⟨_, base, hbase, hbwo, hh, hbv⟩ | ⟨hout, _⟩
  swap
  · exact absurd hst hout
  unfold voxcutMain
  rw [hbase]
  simp only
  generalize hcl : (List.map (fun f => BinVOX.read (F := F) f r) (List.map (·.1) cuts)) = cl
  have hclw : ∀ c, some c ∈ cl → WhiteOnly c := by
    intro c hc
    rw [← hcl] at hc
    obtain ⟨f, _, hf⟩ := List.mem_map.mp hc
    exact read_whiteOnly f r c hf
  have hsucc := (voxcutLoop_exact hF cl base hbwo hclw).1.mpr (Or.inr ⟨k, ?_, ?_⟩)
  · obtain ⟨b, hb⟩ := hsucc
    rw [hb]
    simp only
    by_cases h0 : b.white.length = 0
    · exact ⟨_, by simp [BinVOX.write, h0]; rfl⟩
    · exact ⟨_, by simp [BinVOX.write, h0, Sink.write]; rfl⟩
  · rw [hbv]; exact ⟨hk, closed_of_halfOpen hn hin hs s1 s2 s3⟩
  · intro c hc hv
    rw [← hcl, List.map_map] at hc
    obtain ⟨p, hp, hpc⟩ := List.mem_map.mp hc
    obtain ⟨hw', px, py, pz⟩ := hcw p hp
    rcases read_region_cases p.1 r p.2 hw' hn px py pz with ⟨_, c', hc', _, _, hcv⟩ | ⟨_, hnone⟩
    · simp only [Function.comp] at hpc
      rw [hc'] at hpc; cases hpc
      exact hcut p hp ((hcv _).mp hv).1
    · simp only [Function.comp] at hpc
      rw [hnone] at hpc; cases hpc

/-- The hypotheses are met by the file of the example model. -/
example : ∃ (inp : Input) (bw : BinVOX ℚ), BinVOX.read inp wholeRegion = some bw ∧ 0 < bw.NX ∧ 0 < bw.NY ∧
    0 < bw.NZ ∧ Vox bw ⟨1, 2, 0⟩ := by
  obtain ⟨b', h, h1, h2, h3, _, _, _, _, _, _, hv⟩ := write_region_read exModel (by decide) wholeRegion
    (by decide) (by decide) (by decide)
  refine ⟨_, b', h, by rw [h1]; decide, by rw [h2]; decide, by rw [h3]; decide, ?_⟩
  rw [hv]
  refine ⟨?_, by unfold Vox; decide⟩
  unfold InDims; decide

/-- `voxcut_tile_succeeds` and `voxcut_tile_exact` on that file, the tile of 2 × 3 × 1 voxels at (1, 1, 0), nothing cut. -/
example : ∃ (inp : Input) (w : Sink) (b' : BinVOX ℚ), voxcutMain (F := ℚ) inp [] ⟨1, 1, 0, 2, 3, 1⟩ ⟨[], []⟩ = some w ∧
    BinVOX.read ⟨w.out, true⟩ wholeRegion = some b' ∧ Vox b' ⟨0, 1, 0⟩ := by
  obtain ⟨bw, h, h1, h2, h3, _, _, _, _, _, _, hv⟩ := write_region_read exModel (by decide) wholeRegion
    (by decide) (by decide) (by decide)
  have hk : Vox bw ⟨1, 2, 0⟩ := by
    rw [hv]
    refine ⟨?_, by unfold Vox; decide⟩
    unfold InDims; decide
  have mx : ∀ {a b : Int}, a = b → b ≤ maxInt → a ≤ maxInt := fun h h' => h ▸ h'
  obtain ⟨w, hw⟩ := voxcut_tile_succeeds whiteCancels_rat _ bw h (by rw [h1]; decide) (by rw [h2]; decide) (by rw [h3]; decide) [] (by nofun)
    ⟨1, 1, 0, 2, 3, 1⟩ (by decide) ⟨1, 2, 0⟩ hk (by decide) (.inr (by decide)) (.inr (by decide)) (.inr (by decide)) (by nofun)
  obtain ⟨b', hb, -, -, -, -, hx⟩ := voxcut_tile_exact whiteCancels_rat _ bw h (by rw [h1]; decide) (by rw [h2]; decide) (by rw [h3]; decide) [] (by nofun)
    ⟨1, 1, 0, 2, 3, 1⟩ (by decide) ⟨by decide, mx h1 (by decide)⟩ ⟨by decide, mx h2 (by decide)⟩ ⟨by decide, mx h3 (by decide)⟩ w hw
  exact ⟨_, w, b', hw, hb, (hx _).mpr ⟨by unfold InDims; dsimp only; rw [if_neg (by decide), if_neg (by decide), if_neg (by decide)]; decide, hk, by nofun⟩⟩

end StlDice
