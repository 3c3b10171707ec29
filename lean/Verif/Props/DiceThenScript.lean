import Verif.Props.DiceScript

/-! # C78: the result of stldice followed by its script -/

namespace StlDice
namespace Spec
open BinVOX

/-- Some argument has a file for this tile. -/
def HasTile {F : Type} (fl : Cmd.DiceFlags F) (fs : FS) (t : Key) : Prop :=
  InDims fl.nx fl.ny fl.nz t ∧ ∃ a ∈ fl.args, fs.get (tileBin fl a t) ≠ none

/-- A mesh of the places `Left` of tile `t`: closed, on their skin and with their volume, `side` being the
    side of a voxel. -/
structure TileMesh (L : Layout ℚ) (B : Box ℚ) (t : Key) (side : ℚ) (left : Key → Prop) (ts : List (Tri (Vec ℚ))) : Prop where
  closed : ClosedAfterCuts ts
  skin : ∀ tri ∈ ts, ∃ b, Cmd.InPlace L B t b ∧ (∀ l, Vox b l ↔ left l) ∧ OnSkin b tri
  volume : ∀ ls : List Key, ls.Nodup → (∀ l, l ∈ ls ↔ left l) → volume ts = ls.length * side ^ 3

/-- What is left at place `l` of tile `t`, if the tile of argument `a` holds the voxels `W a t`. -/
def LeftOf (base : Bytes) (cuts : List Bytes) (W : Bytes → Key → Key → Prop) (dx dy dz : Int) (t l : Key) : Prop :=
  InDims dx dy dz l ∧ W base t l ∧ ∀ c ∈ cuts, ¬ W c t l

end Spec

namespace Cmd
open Spec BinVOX

section
variable {F : Type} [GoFloat F]

omit [GoFloat F] in
theorem clean_outName {fl : DiceFlags F} (hp : ∀ a ∈ fl.args, Plain a)
    (h0 : 0 ≤ fl.dim ∧ 0 ≤ fl.nx ∧ 0 ≤ fl.ny ∧ 0 ≤ fl.nz) : Clean (outName fl) := by
  rw [← outName_spec, common_jobName]
  refine clean_jobName ?_ h0
  unfold stlOutPrefix
  split
  · rename_i h1
    obtain ⟨a, ha⟩ := List.length_eq_one_iff.mp h1
    rw [ha]
    exact clean_trim (clean_plain (hp a (by rw [ha]; simp)))
  · unfold Clean; decide

/-- The script as lines of words. -/
theorem script_lines {fl : DiceFlags F} (hp : ∀ a ∈ fl.args, Plain a)
    (h0 : 0 ≤ fl.dim ∧ 0 ≤ fl.nx ∧ 0 ≤ fl.ny ∧ 0 ≤ fl.nz) {tiles : List Key} (ht : ∀ t ∈ tiles, 0 ≤ t.X ∧ 0 ≤ t.Y ∧ 0 ≤ t.Z) :
    shellWords (scriptText (outName fl) (fl.args.map fun a => jobName (trimStl a) fl.dim fl.nx fl.ny fl.nz) tiles) =
      [[ascii "#!/bin/bash", ascii "-x"]] ++ tiles.map (cutLine fl) ++
        if 1 < tiles.length then [[ascii "merge-stl", ascii "-f", ascii "-prefix", outName fl]] else [] := by
  have ho := clean_outName hp h0
  have hstl : Clean (ascii ".stl") := by unfold Clean; decide
  have hbin : Clean (ascii ".binvox") := by unfold Clean; decide
  rw [← shellWords_lines ([[ascii "#!/bin/bash", ascii "-x"]] ++ tiles.map (cutLine fl) ++
        if 1 < tiles.length then [[ascii "merge-stl", ascii "-f", ascii "-prefix", outName fl]] else [])]
  · congr 1
    unfold scriptText
    rw [List.flatMap_append, List.flatMap_append, List.flatMap_map]
    congr 1
    · congr 1
      refine congrArg (fun f => tiles.flatMap f) (funext fun t => ?_)
      unfold cutLine tileStl tileBin
      rw [List.map_map]
      rfl
    · split
      · simp
      · simp
  · intro l hl
    rw [List.mem_append, List.mem_append] at hl
    rcases hl with (hl | hl) | hl
    · rw [List.mem_singleton] at hl
      subst hl
      refine ⟨by simp, ?_⟩
      intro w hw
      have : Clean w := by
        simp only [List.mem_cons, List.not_mem_nil, or_false] at hw
        rcases hw with rfl | rfl <;> (unfold Clean; decide)
      exact this
    · obtain ⟨t, htm, rfl⟩ := List.mem_map.mp hl
      refine ⟨by simp [cutLine], ?_⟩
      intro w hw
      have : Clean w := by
        unfold cutLine at hw
        rw [List.mem_append] at hw
        rcases hw with hw | hw
        · simp only [List.mem_cons, List.not_mem_nil, or_false] at hw
          rcases hw with rfl | rfl | rfl
          · unfold Clean; decide
          · unfold Clean; decide
          · exact clean_append.mpr ⟨clean_tileName ho (ht t htm), hstl⟩
        · obtain ⟨a, ha, rfl⟩ := List.mem_map.mp hw
          exact clean_append.mpr ⟨clean_tileName (clean_jobName (clean_trim (clean_plain (hp a ha))) h0) (ht t htm), hbin⟩
      exact this
    · split at hl
      · rw [List.mem_singleton] at hl
        subst hl
        refine ⟨by simp, ?_⟩
        intro w hw
        have : Clean w := by
          simp only [List.mem_cons, List.not_mem_nil, or_false] at hw
          rcases hw with rfl | rfl | rfl | rfl
          · unfold Clean; decide
          · unfold Clean; decide
          · unfold Clean; decide
          · exact ho
        exact this
      · exact (List.not_mem_nil hl).elim

theorem goodLine_comment [FloatText F] {lib : GL F} {load : Bytes → Option (List (Tri (Vec F)))} {workers : Nat} {d d' : Disk}
    {ws : List Bytes} (h : GoodLine lib load workers d (ascii "#!/bin/bash" :: ws) d') : d' = d := by
  obtain ⟨e, h, -⟩ := h
  generalize hw : ascii "#!/bin/bash" :: ws = l at h
  cases h with
  | comment h => rfl
  | voxcut h =>
    injection hw with hw _
    exact absurd hw (by decide)
  | merge hg h =>
    injection hw with hw _
    exact absurd hw (by decide)

/-- The tile files after a successful run, and the files that are not tiles. -/
theorem diceCmd_content [FloatText F] {load : Bytes → Option (Mesh F)} {bbox : Mesh F → Box F}
    {env : Bytes → Key → FileEnv} (henv : ∀ a t, GoodEnv (env a t)) {fl : DiceFlags F} {fs fs' : FS} {out base : Bytes} {cuts : List Bytes}
    {mesh : Bytes → Mesh F} {L : Layout F} (job : JobFiles load bbox fl fs base cuts mesh L)
    (h : DiceCmd load bbox env fl fs out fs' .done) :
    (∀ t, InDims fl.nx fl.ny fl.nz t → ∀ a ∈ fl.args,
      ∃ vox, VoxelizeRun (tileModel L (jobBox bbox fl (mesh base)) t) (mesh a) (.ok vox) ∧ fs'.get (tileBin fl a t) = tileContent vox) ∧
    ∀ n, (∀ a ∈ fl.args, ∀ t, InDims fl.nx fl.ny fl.nz t → n ≠ tileBin fl a t) → fs'.get n = fs.get n := by
  generalize he : Exit.done = e at h
  cases h with
  | usage _ => cases he
  | notMultiple _ _ => cases he
  | divByZero _ _ => cases he
  | badMbb _ _ _ => cases he
  | failed _ _ _ _ _ => cases he
  | panics _ _ _ _ _ => cases he
  | @done mbb _ pf order h hd hm hb ha ho =>
    obtain ⟨g1, g2⟩ := diceArgs_fresh henv job.layout mesh ha rfl (by
        intro a hh
        rw [job.args] at hh
        injection hh with hh
        subst hh
        rw [hb]
        rfl) job.names job.loads (by
        intro a hh t ht
        rw [← tileBin_spec]
        exact job.freshTiles a hh t ((mem_tileIndices _ _ _ t).mp ht))
    constructor
    · intro t ht a hh
      have ht' := (mem_tileIndices _ _ _ t).mpr ht
      obtain ⟨vox, hvox⟩ : ∃ vox, VoxelizeRun (tileModel L (jobBox bbox fl (mesh base)) t) (mesh a) (.ok vox) := by
        obtain ⟨⟨o, ho⟩, -, h3, -⟩ := voxelize_defined (tileModel L (jobBox bbox fl (mesh base)) t) (mesh a)
        cases o with
        | ok v => exact ⟨v, ho⟩
        | err =>
          have := (h3 _ ho).mp rfl
          have hd := job.dims
          change L.dimX = 0 ∨ L.dimY = 0 ∨ L.dimZ = 0 at this
          omega
        | panic =>
          have nz' : ¬ zeroDim (tileModel L (jobBox bbox fl (mesh base)) t) := by
            have hd := job.dims
            unfold zeroDim
            show ¬ (L.dimX = 0 ∨ L.dimY = 0 ∨ L.dimZ = 0)
            omega
          obtain ⟨c, hc, -⟩ := voxelize_exact _ _ nz' _ ho
          cases hc
      refine ⟨vox, hvox, ?_⟩
      rw [← g1 a hh t ht' vox hvox, ← tileBin_spec]
    · intro n hn
      refine g2 n ?_
      intro a hh t ht
      rw [← tileBin_spec]
      exact hn a hh t ((mem_tileIndices _ _ _ t).mp ht)

/-- A tile file that is not there, and what it would read as. -/
theorem diceCmd_tiles_any [FloatText F] [LawfulFloatText F] {load : Bytes → Option (Mesh F)} {bbox : Mesh F → Box F}
    {env : Bytes → Key → FileEnv} (henv : ∀ a t, GoodEnv (env a t)) {fl : DiceFlags F} {fs fs' : FS} {out base : Bytes} {cuts : List Bytes}
    {mesh : Bytes → Mesh F} {L : Layout F} (job : JobFiles load bbox fl fs base cuts mesh L) {W : Bytes → Key → Key → Prop}
    (hW : ∀ a ∈ fl.args, ∀ t, InDims fl.nx fl.ny fl.nz t → ∀ vox,
      VoxelizeRun (tileModel L (jobBox bbox fl (mesh base)) t) (mesh a) (.ok vox) →
      ∀ l, InDims L.dimX L.dimY L.dimZ l → (Vox vox l ↔ W a t l))
    (h : DiceCmd load bbox env fl fs out fs' .done) :
    (∀ t, InDims fl.nx fl.ny fl.nz t → ∀ a ∈ fl.args,
      ReadsAs L (jobBox bbox fl (mesh base)) t (BinVOX.Read (input fs'.get (tileBin fl a t)) wholeRegion)
        (fun l => InDims L.dimX L.dimY L.dimZ l ∧ W a t l)) ∧
    ∀ n, (∀ a ∈ fl.args, ∀ t, InDims fl.nx fl.ny fl.nz t → n ≠ tileBin fl a t) → fs'.get n = fs.get n := by
  obtain ⟨h1, h2⟩ := diceCmd_content henv job h
  refine ⟨?_, h2⟩
  intro t ht a ha
  obtain ⟨vox, hvox, e⟩ := h1 t ht a ha
  have hr := tile_reads_any job.dims.1 job.dims.2.1 job.dims.2.2 hvox (hW a ha t ht vox hvox)
  rw [← e] at hr
  exact hr

/-- The places of the tiles, taken together, are the places of the whole. -/
theorem tiles_count {dx dy dz nx ny nz : Int} (hx : 0 < dx) (hy : 0 < dy) (hz : 0 < dz) (P : Key → Prop) (local' : Key → List Key)
    (hn : ∀ t, (local' t).Nodup) (hl : ∀ t l, l ∈ local' t ↔ InDims dx dy dz l ∧ P (l.shift (t.X * dx) (t.Y * dy) (t.Z * dz)))
    {all : List Key} (ha : all.Nodup) (hm : ∀ k, k ∈ all ↔ InDims (nx * dx) (ny * dy) (nz * dz) k ∧ P k) :
    all.length = ((tileIndices nx ny nz).map fun t => (local' t).length).sum := by
  have hin : ∀ t l : Key, InDims dx dy dz l ↔ InTile dx dy dz t (l.shift (t.X * dx) (t.Y * dy) (t.Z * dz)) := by
    intro t l
    obtain ⟨X, Y, Z⟩ := l
    unfold InDims InTile Key.shift
    dsimp only
    rw [add_mul, add_mul, add_mul]
    omega
  have hp : all.Perm ((tileIndices nx ny nz).flatMap fun t => (local' t).map fun l => l.shift (t.X * dx) (t.Y * dy) (t.Z * dz)) := by
    refine (List.perm_ext_iff_of_nodup ha ?_).mpr ?_
    · rw [List.nodup_flatMap]
      constructor
      · intro t _
        refine (hn t).map ?_
        rintro ⟨X, Y, Z⟩ ⟨X', Y', Z'⟩ e
        simp only [Key.shift, Key.mk.injEq] at e
        obtain ⟨h1, h2, h3⟩ := e
        have := add_right_cancel h1
        have := add_right_cancel h2
        have := add_right_cancel h3
        subst_vars
        rfl
      · refine (tileIndices_nodup nx ny nz).imp_of_mem ?_
        intro t u ht hu hne k hk hk'
        obtain ⟨l, hl1, rfl⟩ := List.mem_map.mp hk
        obtain ⟨l', hl2, e⟩ := List.mem_map.mp hk'
        have c := (tiles_cover dx dy dz nx ny nz hx hy hz (l.shift (t.X * dx) (t.Y * dy) (t.Z * dz))).2 t ht u hu
          ((hin t l).mp ((hl t l).mp hl1).1)
        rw [← e] at c
        exact hne (c ((hin u l').mp ((hl u l').mp hl2).1))
    · intro k
      rw [hm, ← (tiles_cover dx dy dz nx ny nz hx hy hz k).1, List.mem_flatMap]
      constructor
      · rintro ⟨⟨t, ht, hk⟩, hP⟩
        have e : (k.shift (-(t.X * dx)) (-(t.Y * dy)) (-(t.Z * dz))).shift (t.X * dx) (t.Y * dy) (t.Z * dz) = k := by
          obtain ⟨X, Y, Z⟩ := k
          simp [Key.shift]
        refine ⟨t, ht, List.mem_map.mpr ⟨_, (hl t _).mpr ⟨(hin t _).mpr ?_, ?_⟩, e⟩⟩
        · rw [e]; exact hk
        · rw [e]; exact hP
      · rintro ⟨t, ht, hk⟩
        obtain ⟨l, hl1, rfl⟩ := List.mem_map.mp hk
        obtain ⟨h1, h2⟩ := (hl t l).mp hl1
        exact ⟨⟨t, ht, (hin t l).mp h1⟩, h2⟩
  rw [hp.length_eq, List.length_flatMap]
  simp

theorem allTriangles_map {T : Type} (load : Bytes → Option (List T)) (f : Key → Bytes) (g : Key → List T) :
    ∀ l : List Key, (∀ t ∈ l, load (f t) = some (g t)) → allTriangles load (l.map f) = l.flatMap g := by
  intro l h
  unfold allTriangles
  rw [List.flatMap_map]
  refine List.flatMap_congr ?_
  intro t ht
  rw [h t ht]
  rfl

/-- stldice and then its script, for a job whose files can all be read and written, in any arithmetic: every tile's STL file is
    what `ToMesh` makes of the voxels of the tile that are left of the base after the cuts, a tile without a file has nothing left,
    and the merged file, written iff two tiles have voxel files, has the triangles of all the tiles' STL files. -/
theorem dice_then_script_any [FloatText F] [LawfulFloatText F] (hF : WhiteCancels F) {load : Bytes → Option (Mesh F)}
    {bbox : Mesh F → Box F}
    {env : Bytes → Key → FileEnv} (henv : ∀ a t, GoodEnv (env a t)) {fl : DiceFlags F} {fs fs' : FS} {out base : Bytes} {cuts : List Bytes}
    {mesh : Bytes → Mesh F} {L : Layout F} (job : JobFiles load bbox fl fs base cuts mesh L) {W : Bytes → Key → Key → Prop}
    (hW : ∀ a ∈ fl.args, ∀ t, InDims fl.nx fl.ny fl.nz t → ∀ vox,
      VoxelizeRun (tileModel L (jobBox bbox fl (mesh base)) t) (mesh a) (.ok vox) →
      ∀ l, InDims L.dimX L.dimY L.dimZ l → (Vox vox l ↔ W a t l))
    (h : DiceCmd load bbox env fl fs out fs' .done) {lib : GL F}
    {loadTris : Bytes → Option (List (Tri (Vec F)))} {round : Vec F → Vec F}
    (hload : ∀ ts, (lib.stl ts).length < 84 + 50 * 4294967296 → loadTris (lib.stl ts) = some (ts.map (moveTri round)))
    {workers : Nat} {d' : Disk} (hs : ScriptRun (GoodLine lib loadTris workers) fs'.get (shellWords out) d')
    (hsmall : ∀ t file, d' (tileStl fl t) = some file → file.length < 84 + 50 * 4294967296) :
    ∃ m : Key → List (Tri (Vec F)),
      (∀ t, InDims fl.nx fl.ny fl.nz t →
        (d' (tileStl fl t) = none ∧ m t = [] ∧ ∀ l, ¬ LeftOf base cuts W L.dimX L.dimY L.dimZ t l) ∨
        d' (tileStl fl t) = some (lib.stl (m t)) ∧ ∃ b, InPlace L (jobBox bbox fl (mesh base)) t b ∧
          (∀ l, Vox b l ↔ LeftOf base cuts W L.dimX L.dimY L.dimZ t l) ∧ ToMeshRun lib b (m t)) ∧
      ((∃ t u, t ≠ u ∧ HasTile fl fs' t ∧ HasTile fl fs' u) → ∃ order : List Key, order.Nodup ∧
        (∀ t, t ∈ order ↔ InDims fl.nx fl.ny fl.nz t ∧ d' (tileStl fl t) ≠ none) ∧
        d' (outName fl ++ ascii ".stl") =
          some (if order = [] then [] else lib.stl (order.flatMap fun t => (m t).map (moveTri round)))) ∧
      ((¬ ∃ t u, t ≠ u ∧ HasTile fl fs' t ∧ HasTile fl fs' u) → d' (outName fl ++ ascii ".stl") = none) ∧
      ∀ n, n ≠ outName fl ++ ascii ".stl" → (∀ t, InDims fl.nx fl.ny fl.nz t → n ≠ tileStl fl t) → d' n = fs'.get n := by
  have nn : ∀ {t}, InDims fl.nx fl.ny fl.nz t → 0 ≤ t.X ∧ 0 ≤ t.Y ∧ 0 ≤ t.Z := by
    intro t ht
    unfold InDims at ht
    omega
  have pos : 0 ≤ fl.dim ∧ 0 ≤ fl.nx ∧ 0 ≤ fl.ny ∧ 0 ≤ fl.nz := by
    have := job.dim
    have := job.divs
    omega
  obtain ⟨hreads, hsame⟩ := diceCmd_tiles_any henv job hW h
  obtain ⟨tiles, htm, hsort, rfl⟩ := (dice_script h).2 rfl
  have htiles : ∀ t, t ∈ tiles ↔ HasTile fl fs' t := by
    intro t
    rw [htm]
    unfold HasTile
    refine and_congr_right fun hi => ?_
    constructor
    · rintro ⟨a, ha, -, h2⟩; exact ⟨a, ha, h2⟩
    · rintro ⟨a, ha, h2⟩; exact ⟨a, ha, job.freshTiles a ha t hi, h2⟩
  have hnd : tiles.Nodup := by
    refine List.Nodup.of_map (tileName []) (hsort.imp ?_)
    intro a b h e
    rw [e] at h
    exact List.lt_irrefl b h
  rw [script_lines job.plain pos (fun t ht => nn ((htiles t).mp ht).1), List.append_assoc, List.singleton_append] at hs
  -- before the script there is no STL file
  have hstl0 : ∀ mid, fs'.get (outName fl ++ mid ++ ascii ".stl") = none := by
    intro mid
    rw [hsame _ (fun a _ t _ => tileStl_ne_bin _ _)]
    exact job.freshStl mid
  have htile0 : ∀ t, fs'.get (tileStl fl t) = none := by
    intro t
    unfold tileStl
    rw [tileName_suffix]
    exact hstl0 _
  cases hs with
  | cons h1 hs =>
    have := goodLine_comment h1
    subst this
    obtain ⟨d1, hs1, hs2⟩ := scriptRun_append hs
    obtain ⟨hres, hother⟩ := script_tiles hF job.args (L := L) (B := jobBox bbox fl (mesh base))
      (W := fun a t l => InDims L.dimX L.dimY L.dimZ l ∧ W a t l) tiles hnd
      (fun t ht => nn ((htiles t).mp ht).1) (fun t _ => htile0 t) (fun t ht a ha => hreads t ((htiles t).mp ht).1 a ha) hs1
    have hleft : ∀ t l, ((InDims L.dimX L.dimY L.dimZ l ∧ W base t l) ∧
        ∀ c ∈ cuts, ¬ (InDims L.dimX L.dimY L.dimZ l ∧ W c t l)) ↔ LeftOf base cuts W L.dimX L.dimY L.dimZ t l := by
      intro t l
      unfold LeftOf
      constructor
      · rintro ⟨⟨h1, h2⟩, h3⟩; exact ⟨h1, h2, fun c hc h => h3 c hc ⟨h1, h⟩⟩
      · rintro ⟨h1, h2, h3⟩; exact ⟨⟨h1, h2⟩, fun c hc h => h3 c hc h.2⟩
    simp only [hleft] at hres
    have hall : ∀ t, InDims fl.nx fl.ny fl.nz t →
        TileResult lib L (jobBox bbox fl (mesh base)) t (LeftOf base cuts W L.dimX L.dimY L.dimZ t) (d1 (tileStl fl t)) := by
      intro t ht
      by_cases hm : t ∈ tiles
      · exact hres t hm
      · left
        constructor
        · rw [hother _ (fun u hu e => hm (tileStl_inj fl (nn ht) (nn ((htiles u).mp hu).1) e ▸ hu)), htile0]
        · intro l hl
          have hb : base ∈ fl.args := by rw [job.args]; simp
          have hnf : fs'.get (tileBin fl base t) = none := by
            by_contra hc
            exact hm ((htiles t).mpr ⟨ht, base, hb, hc⟩)
          rcases hreads t ht base hb with ⟨-, h2⟩ | ⟨b, e, -⟩
          · exact h2 l ⟨hl.1, hl.2.1⟩
          · unfold input at e
            rw [hnf] at e
            cases e
    have hpick : ∀ t, ∃ ts, InDims fl.nx fl.ny fl.nz t →
        (d1 (tileStl fl t) = none ∧ ts = [] ∧ ∀ l, ¬ LeftOf base cuts W L.dimX L.dimY L.dimZ t l) ∨
        d1 (tileStl fl t) = some (lib.stl ts) ∧ ∃ b, InPlace L (jobBox bbox fl (mesh base)) t b ∧
          (∀ l, Vox b l ↔ LeftOf base cuts W L.dimX L.dimY L.dimZ t l) ∧ ToMeshRun lib b ts := by
      intro t
      by_cases ht : InDims fl.nx fl.ny fl.nz t
      · rcases hall t ht with ⟨h1, h2⟩ | ⟨b, tris, h1, h2, h3, h4⟩
        · exact ⟨[], fun _ => Or.inl ⟨h1, rfl, h2⟩⟩
        · exact ⟨tris, fun _ => Or.inr ⟨h1, b, h2, h3, h4⟩⟩
      · exact ⟨[], fun h => absurd h ht⟩
    choose m hm using hpick
    have hout0 : d1 (outName fl ++ ascii ".stl") = none := by
      rw [hother _ (fun t _ e => tileStl_ne_out fl t e.symm)]
      have := hstl0 []
      rwa [List.append_nil] at this
    have hlt : 1 < tiles.length ↔ ∃ t u, t ≠ u ∧ HasTile fl fs' t ∧ HasTile fl fs' u := by
      constructor
      · intro hl
        rcases tiles with _ | ⟨t, _ | ⟨u, l⟩⟩
        · simp at hl
        · simp at hl
        · refine ⟨t, u, ?_, (htiles t).mp (by simp), (htiles u).mp (by simp)⟩
          rintro rfl
          simp at hnd
      · rintro ⟨t, u, hne, h1, h2⟩
        have h1 := (htiles t).mpr h1
        have h2 := (htiles u).mpr h2
        rcases tiles with _ | ⟨a, _ | ⟨b, l⟩⟩
        · cases h1
        · simp only [List.mem_singleton] at h1 h2
          exact absurd (h1.trans h2.symm) hne
        · simp
    by_cases hl : 1 < tiles.length
    · rw [if_pos hl] at hs2
      cases hs2 with
      | cons h2 hs3 =>
        cases hs3
        obtain ⟨names, e, hg, hmr, he⟩ := goodLine_merge h2
        -- the files found are the tiles' STL files
        have hmem : ∀ n, n ∈ names ↔ ∃ t ∈ (tileIndices fl.nx fl.ny fl.nz).filter (fun t => d1 (tileStl fl t) ≠ none), tileStl fl t = n := by
          intro n
          rw [hg.2]
          constructor
          · rintro ⟨hne, mid, -, rfl⟩
            by_cases hx : ∃ t ∈ tiles, outName fl ++ mid ++ ascii ".stl" = tileStl fl t
            · obtain ⟨t, ht, e⟩ := hx
              refine ⟨t, ?_, e.symm⟩
              rw [List.mem_filter, mem_tileIndices, decide_eq_true_eq, ← e]
              exact ⟨((htiles t).mp ht).1, hne⟩
            · rw [hother _ (fun t ht e => hx ⟨t, ht, e⟩), hstl0] at hne
              exact absurd rfl hne
          · rintro ⟨t, ht, rfl⟩
            rw [List.mem_filter, mem_tileIndices, decide_eq_true_eq] at ht
            refine ⟨ht.2, tileSuffix t, suffix_no_slash (nn ht.1), ?_⟩
            unfold tileStl
            rw [tileName_suffix]
        have hperm : names.Perm (((tileIndices fl.nx fl.ny fl.nz).filter (fun t => d1 (tileStl fl t) ≠ none)).map (tileStl fl)) := by
          refine (List.perm_ext_iff_of_nodup hg.1 ?_).mpr fun n => by rw [hmem, List.mem_map]
          refine ((tileIndices_nodup _ _ _).filter _).map_on ?_
          intro t ht u hu e
          rw [List.mem_filter, mem_tileIndices] at ht hu
          exact tileStl_inj fl (nn ht.1) (nn hu.1) e
        have hloaded : ∀ t, InDims fl.nx fl.ny fl.nz t → d1 (tileStl fl t) ≠ none →
            (d1 (tileStl fl t)).bind loadTris = some ((m t).map (moveTri round)) := by
          intro t ht hne
          rcases hm t ht with ⟨e, -⟩ | ⟨e, -⟩
          · exact absurd e hne
          · rw [e]
            refine hload _ (hsmall t _ ?_)
            rw [← e]
            exact (merge_stl_touches hmr).1 _ (tileStl_ne_out fl t)
        have hnout : outName fl ++ ascii ".stl" ∉ names := by
          intro hc
          obtain ⟨t, -, e⟩ := (hmem _).mp hc
          exact tileStl_ne_out fl t e
        have hput : ∀ c, d' = put d1 (outName fl ++ ascii ".stl") c →
            (∀ t, d' (tileStl fl t) = d1 (tileStl fl t)) ∧
            ∀ n, n ≠ outName fl ++ ascii ".stl" → (∀ t, InDims fl.nx fl.ny fl.nz t → n ≠ tileStl fl t) → d' n = fs'.get n := by
          rintro c rfl
          refine ⟨fun t => put_other _ _ (tileStl_ne_out fl t), ?_⟩
          intro n h1 h2
          rw [put_other _ _ h1, hother _ (fun t ht => h2 t ((htiles t).mp ht).1)]
        rcases merge_not_fatal hmr he hnout (by
          intro f hf
          obtain ⟨t, ht, rfl⟩ := (hmem f).mp hf
          rw [List.mem_filter, mem_tileIndices, decide_eq_true_eq] at ht
          rw [hloaded t ht.1 ht.2]
          rfl) with ⟨rfl, hd⟩ | ⟨hne, order, ho, hd⟩
        · obtain ⟨hk1, hk2⟩ := hput _ hd
          refine ⟨m, fun t ht => by rw [hk1]; exact hm t ht, fun _ => ⟨[], List.nodup_nil, ?_, by rw [hd, put_self]; rfl⟩,
            fun hc => absurd (hlt.mp hl) hc, hk2⟩
          intro t
          refine ⟨fun h => (List.not_mem_nil h).elim, ?_⟩
          rintro ⟨ht, hne⟩
          rw [hk1] at hne
          exact absurd ((hmem _).mpr ⟨t, by rw [List.mem_filter, mem_tileIndices, decide_eq_true_eq]; exact ⟨ht, hne⟩, rfl⟩) List.not_mem_nil
        · obtain ⟨hk1, hk2⟩ := hput _ hd
          obtain ⟨order', hp', e'⟩ := perm_map_exists (tileStl fl) _ _ (ho.trans hperm)
          have hmo : ∀ t, t ∈ order' ↔ InDims fl.nx fl.ny fl.nz t ∧ d1 (tileStl fl t) ≠ none := by
            intro t
            rw [hp'.mem_iff, List.mem_filter, mem_tileIndices, decide_eq_true_eq]
          refine ⟨m, fun t ht => by rw [hk1]; exact hm t ht, fun _ => ⟨order', ?_, ?_, ?_⟩, fun hc => absurd (hlt.mp hl) hc, hk2⟩
          · exact hp'.nodup_iff.mpr ((tileIndices_nodup _ _ _).filter _)
          · intro t
            rw [hk1, hmo]
          · have hno : order' ≠ [] := by
              rintro rfl
              rw [List.map_nil] at e'
              rw [← e'] at ho
              exact hne (List.nil_perm.mp ho)
            rw [hd, put_self, if_neg hno, ← e', allTriangles_map _ _ (fun t => (m t).map (moveTri round))]
            intro t ht
            obtain ⟨h1, h2⟩ := (hmo t).mp ht
            exact hloaded t h1 h2
    · rw [if_neg hl] at hs2
      cases hs2
      refine ⟨m, hm, fun hc => absurd (hlt.mpr hc) hl, fun _ => hout0, ?_⟩
      intro n _ h2
      exact hother _ (fun t ht => h2 t ((htiles t).mp ht).1)

end

/-- A tile file that is not there, and what it would read as. -/
theorem diceCmd_tiles [FloatText ℚ] [LawfulFloatText ℚ] {load : Bytes → Option (Mesh ℚ)} {bbox : Mesh ℚ → Box ℚ}
    {env : Bytes → Key → FileEnv} (henv : ∀ a t, GoodEnv (env a t)) {fl : DiceFlags ℚ} {fs fs' : FS} {out base : Bytes} {cuts : List Bytes}
    {mesh : Bytes → Mesh ℚ} {L : Layout ℚ} {whole : Bytes → BinVOX ℚ} (job : GoodJob load bbox fl fs base cuts mesh L whole)
    (h : DiceCmd load bbox env fl fs out fs' .done) :
    (∀ t, InDims fl.nx fl.ny fl.nz t → ∀ a ∈ fl.args,
      ReadsAs L (jobBox bbox fl (mesh base)) t (BinVOX.Read (input fs'.get (tileBin fl a t)) wholeRegion)
        (fun l => InDims L.dimX L.dimY L.dimZ l ∧ Vox (whole a) (inWhole L t l))) ∧
    ∀ n, (∀ a ∈ fl.args, ∀ t, InDims fl.nx fl.ny fl.nz t → n ≠ tileBin fl a t) → fs'.get n = fs.get n :=
  diceCmd_tiles_any henv job.files (W := fun a t l => Vox (whole a) (inWhole L t l)) (by
    intro a ha t ht vox hvox l hl
    exact dice_same_voxels _ _ fl.dim fl.nx fl.ny fl.nz L job.layout job.scale job.dim job.dims.1.1 job.dims.2.1.1 job.dims.2.2.1 job.divs.1
      (mesh a) (whole a) (job.voxelized a ha) t ((mem_tileIndices _ _ _ t).mpr ht) vox hvox l hl) h

/-- A tile without voxels has the empty mesh. -/
theorem tileMesh_empty {L : Layout ℚ} {B : Box ℚ} {t : Key} {side : ℚ} {W : Key → Prop} (h : ∀ l, ¬ W l) : TileMesh L B t side W [] := by
  refine ⟨closedAfterCuts_of_closed (fun _ _ => rfl), fun _ hm => (List.not_mem_nil hm).elim, ?_⟩
  intro ls _ hls
  have : ls = [] := by
    cases ls with
    | nil => rfl
    | cons a l => exact absurd ((hls a).mp (by simp)) (h a)
  subst this
  simp [Spec.volume]

/-- The mesh of a tile. -/
theorem tileMesh_cubes {lib : GL ℚ} {L : Layout ℚ} {B : Box ℚ} {dim nx ny nz : Int} (hL : layout B (boxScale B) dim nx ny nz = .ok L)
    (hs : 0 < boxScale B) (hd : 0 < dim) (px : 0 < L.dimX) {t : Key} {W : Key → Prop} (hW : ∀ l, W l → InDims L.dimX L.dimY L.dimZ l)
    (hlib : ∀ ks : List Key, (∀ k ∈ ks, InDims L.dimX L.dimY L.dimZ k) → IsVoxelMesh ks (lib.voxelMesh ks))
    {b : BinVOX ℚ} {tris : List (Tri (Vec ℚ))} (hp : InPlace L B t b) (hv : ∀ l, Vox b l ↔ W l) (ht : ToMeshRun lib b tris) :
    TileMesh L B t (boxScale B / dim) W tris := by
  have hg : b.VoxelsPerMM = dim / boxScale B := by
    rw [← (tile_geometry B (boxScale B) dim nx ny nz L hL hs hd px t t).1]
    unfold BinVOX.VoxelsPerMM
    rw [hp.nx, hp.ny, hp.nz, hp.scale]
    rfl
  have hpv : ∀ k, Present b k ↔ W k := fun k => (present_vox hp.white k).trans (hv k)
  have hdq : (0 : ℚ) < dim := by exact_mod_cast hd
  obtain ⟨h1, h2, h3⟩ := toMesh_exact ht (by rw [hg]; positivity) (by
    intro ks hks
    refine hlib ks ?_
    intro k hk
    exact hW k ((hpv k).mp ((hks k).mp hk)))
  refine ⟨h1, fun tri htri => ⟨b, hp, hv, h2 tri htri⟩, ?_⟩
  intro ls hnd hls
  rw [h3 ls hnd (fun k => (hls k).trans (hpv k).symm), hg, one_div_div]

/-- **C78.** stldice and then its script, for a job whose files can all be read and written: every tile's
    STL file is a closed mesh of exactly the voxels of the tile that are left of the base after the
    cuts — the voxels of the undiced models —, a tile without a file has nothing left, the volumes of
    the tiles add up to the volume of what is left of the whole, and the merged file, written iff two tiles have
    voxel files, has the triangles of all the tiles' STL files. -/
theorem dice_then_script [FloatText ℚ] [LawfulFloatText ℚ] {load : Bytes → Option (Mesh ℚ)} {bbox : Mesh ℚ → Box ℚ}
    {env : Bytes → Key → FileEnv} (henv : ∀ a t, GoodEnv (env a t)) {fl : DiceFlags ℚ} {fs fs' : FS} {out base : Bytes} {cuts : List Bytes}
    {mesh : Bytes → Mesh ℚ} {L : Layout ℚ} {whole : Bytes → BinVOX ℚ} (job : GoodJob load bbox fl fs base cuts mesh L whole)
    (h : DiceCmd load bbox env fl fs out fs' .done)
    {lib : GL ℚ} (hlib : ∀ ks : List Key, (∀ k ∈ ks, InDims L.dimX L.dimY L.dimZ k) → IsVoxelMesh ks (lib.voxelMesh ks))
    {loadTris : Bytes → Option (List (Tri (Vec ℚ)))} {round : Vec ℚ → Vec ℚ}
    (hload : ∀ ts, (lib.stl ts).length < 84 + 50 * 4294967296 → loadTris (lib.stl ts) = some (ts.map (moveTri round)))
    {workers : Nat} {d' : Disk} (hs : ScriptRun (GoodLine lib loadTris workers) fs'.get (shellWords out) d')
    (hsmall : ∀ t file, d' (tileStl fl t) = some file → file.length < 84 + 50 * 4294967296) :
    ∃ m : Key → List (Tri (Vec ℚ)),
      (∀ t, InDims fl.nx fl.ny fl.nz t →
        (d' (tileStl fl t) = some (lib.stl (m t)) ∨
          d' (tileStl fl t) = none ∧ m t = [] ∧ ∀ l, ¬ TileLeft L base cuts whole t l) ∧
        TileMesh L (jobBox bbox fl (mesh base)) t (boxScale (jobBox bbox fl (mesh base)) / fl.dim) (TileLeft L base cuts whole t) (m t)) ∧
      (∀ ls : List Key, ls.Nodup →
        (∀ k, k ∈ ls ↔ InDims (fl.nx * L.dimX) (fl.ny * L.dimY) (fl.nz * L.dimZ) k ∧ Left base cuts whole k) →
        ((tileIndices fl.nx fl.ny fl.nz).map fun t => volume (m t)).sum =
          ls.length * (boxScale (jobBox bbox fl (mesh base)) / fl.dim) ^ 3) ∧
      ((∃ t u, t ≠ u ∧ HasTile fl fs' t ∧ HasTile fl fs' u) → ∃ order : List Key, order.Nodup ∧
        (∀ t, t ∈ order ↔ InDims fl.nx fl.ny fl.nz t ∧ d' (tileStl fl t) ≠ none) ∧
        d' (outName fl ++ ascii ".stl") =
          some (if order = [] then [] else lib.stl (order.flatMap fun t => (m t).map (moveTri round)))) ∧
      ((¬ ∃ t u, t ≠ u ∧ HasTile fl fs' t ∧ HasTile fl fs' u) → d' (outName fl ++ ascii ".stl") = none) ∧
      ∀ n, n ≠ outName fl ++ ascii ".stl" → (∀ t, InDims fl.nx fl.ny fl.nz t → n ≠ tileStl fl t) → d' n = fs'.get n := by
  have pos : 0 < fl.dim := job.dim
  obtain ⟨m, hm, h2, h3, h4⟩ := dice_then_script_any whiteCancels_rat henv job.files
    (W := fun a t l => Vox (whole a) (inWhole L t l)) (by
      intro a ha t ht vox hvox l hl
      exact dice_same_voxels _ _ fl.dim fl.nx fl.ny fl.nz L job.layout job.scale job.dim job.dims.1.1 job.dims.2.1.1 job.dims.2.2.1 job.divs.1
        (mesh a) (whole a) (job.voxelized a ha) t ((mem_tileIndices _ _ _ t).mpr ht) vox hvox l hl) h hload hs hsmall
  have hm' : ∀ t, InDims fl.nx fl.ny fl.nz t →
      (d' (tileStl fl t) = some (lib.stl (m t)) ∨
        d' (tileStl fl t) = none ∧ m t = [] ∧ ∀ l, ¬ TileLeft L base cuts whole t l) ∧
      TileMesh L (jobBox bbox fl (mesh base)) t (boxScale (jobBox bbox fl (mesh base)) / fl.dim) (TileLeft L base cuts whole t) (m t) := by
    intro t ht
    rcases hm t ht with ⟨e1, e2, e3⟩ | ⟨e1, b, e2, e3, e4⟩
    · refine ⟨Or.inr ⟨e1, e2, e3⟩, ?_⟩
      rw [e2]
      exact tileMesh_empty e3
    · exact ⟨Or.inl e1, tileMesh_cubes job.layout job.scale job.dim job.dims.1.1 (fun l hl => hl.1) hlib e2 e3 e4⟩
  refine ⟨m, hm', ?_, h2, h3, h4⟩
  classical
  intro ls hn hls
  have hloc : ∀ t l, l ∈ (tileIndices L.dimX L.dimY L.dimZ).filter (fun l => Left base cuts whole (inWhole L t l)) ↔
      TileLeft L base cuts whole t l := by
    intro t l
    rw [List.mem_filter, mem_tileIndices, decide_eq_true_eq]
    rfl
  have hlen := tiles_count job.dims.1.1 job.dims.2.1.1 job.dims.2.2.1 (Left base cuts whole)
    (fun t => (tileIndices L.dimX L.dimY L.dimZ).filter (fun l => Left base cuts whole (inWhole L t l)))
    (fun t => (tileIndices_nodup _ _ _).filter _) hloc hn hls
  rw [hlen]
  have hv : (tileIndices fl.nx fl.ny fl.nz).map (fun t => volume (m t)) = (tileIndices fl.nx fl.ny fl.nz).map (fun t =>
      (((tileIndices L.dimX L.dimY L.dimZ).filter (fun l => Left base cuts whole (inWhole L t l))).length : ℚ) *
        (boxScale (jobBox bbox fl (mesh base)) / fl.dim) ^ 3) := by
    refine List.map_congr_left ?_
    intro t ht
    exact (hm' t ((mem_tileIndices _ _ _ t).mp ht)).2.volume _ ((tileIndices_nodup _ _ _).filter _) (hloc t)
  rw [hv, List.sum_map_mul_right]
  congr 1
  induction tileIndices fl.nx fl.ny fl.nz with
  | nil => simp
  | cons a l ih =>
    rw [List.map_cons, List.map_cons, List.sum_cons, List.sum_cons, ih]
    push_cast
    rfl

end Cmd
end StlDice
