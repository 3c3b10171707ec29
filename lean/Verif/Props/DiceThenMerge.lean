import Verif.Props.DiceRuns
import Verif.Props.MergeBinvoxCmd

/-! # C118: stldice and then merge-binvox on its tiles -/

namespace StlDice
namespace Cmd
open Spec BinVOX

/-- The prefix of the tile files of an argument: what one gives to `merge-binvox -prefix`. -/
theorem tileBin_suffix {F : Type} (fl : DiceFlags F) (a : Bytes) (t : Key) :
    tileBin fl a t = jobName (trimStl a) fl.dim fl.nx fl.ny fl.nz ++ (tileSuffix t ++ ascii ".binvox") := by
  unfold tileBin
  rw [tileName_suffix, List.append_assoc]

theorem tileBin_inj {F : Type} (fl : DiceFlags F) (a : Bytes) {t u : Key} (ht : 0 ≤ t.X ∧ 0 ≤ t.Y ∧ 0 ≤ t.Z)
    (hu : 0 ≤ u.X ∧ 0 ≤ u.Y ∧ 0 ≤ u.Z) (h : tileBin fl a t = tileBin fl a u) : t = u := by
  rw [tileBin_suffix, tileBin_suffix] at h
  exact tileSuffix_injective t u ht hu (List.append_cancel_right (List.append_cancel_left h))

/-- Files above the first one, pairwise disjoint, can be merged. -/
theorem mergeable_above {bx by' bz v : ℚ} (m : Key) : ∀ (fs : List MFile) (W : Key → Prop) (n : Nat),
    (∀ f ∈ fs, OnLattice bx by' bz v f ∧ f.bv.VoxelsPerMM = v ∧ KLe m f.t ∧ (∀ k, f.world k → ¬ W k) ∧
      f.sch.Valid f.bv (f.t.X - m.X) (f.t.Y - m.Y) (f.t.Z - m.Z) ∧
      n + (fs.map fun f => f.sch.ordLookup.length).sum ≤ f.sch.cap) →
    fs.Pairwise (fun f g => ∀ k, g.world k → ¬ f.world k) → Mergeable bx by' bz v m W n fs := by
  intro fs
  induction fs with
  | nil => intro W n _ _; trivial
  | cons f fs ih =>
    intro W n hf hp
    obtain ⟨h1, h2, h3, h4, h5, h6⟩ := hf f (by simp)
    rw [List.map_cons, List.sum_cons] at h6
    have hn : newMove ⟨f.t.X - m.X, f.t.Y - m.Y, f.t.Z - m.Z⟩ = ⟨f.t.X - m.X, f.t.Y - m.Y, f.t.Z - m.Z⟩ := by
      refine if_pos ?_
      unfold KLe at h3
      unfold NonNeg
      dsimp only
      omega
    rw [List.pairwise_cons] at hp
    refine ⟨h1, h2, Or.inl h3, h4, by rw [hn]; exact h5, by omega, ?_⟩
    rw [if_pos h3]
    refine ih _ _ ?_ hp.2
    intro g hg
    obtain ⟨g1, g2, g3, g4, g5, g6⟩ := hf g (List.mem_cons_of_mem _ hg)
    rw [List.map_cons, List.sum_cons] at g6
    refine ⟨g1, g2, g3, ?_, g5, by omega⟩
    rintro k hk (hw | hw)
    · exact g4 k hk hw
    · exact hp.1 g hg k hk hw

/-- A tile file can be read. -/
theorem tile_content_read {F : Type} [GoFloat F] [FloatText F] [LawfulFloatText F] {L : Layout F} {B : Box F}
    (px : 0 < L.dimX ∧ L.dimX ≤ maxInt) (py : 0 < L.dimY ∧ L.dimY ≤ maxInt) (pz : 0 < L.dimZ ∧ L.dimZ ≤ maxInt)
    {mesh : Mesh F} {t : Key} {vox : BinVOX F} (hvox : VoxelizeRun (tileModel L B t) mesh (.ok vox)) (hc : tileContent vox ≠ none) :
    ∃ b, BinVOX.Read (F := F) ((tileContent vox).map fun b => ⟨b, true⟩) wholeRegion = some b := by
  have nz' : ¬ zeroDim (tileModel L B t) := by
    unfold zeroDim
    show ¬ (L.dimX = 0 ∨ L.dimY = 0 ∨ L.dimZ = 0)
    omega
  obtain ⟨c, hcc, hb, _, _⟩ := voxelize_exact _ mesh nz' _ hvox
  injection hcc with hcc
  subst hcc
  unfold tileContent at hc ⊢
  by_cases h0 : vox.white.length = 0
  · rw [if_pos h0] at hc
    exact absurd rfl hc
  · rw [if_neg h0]
    have hr := write_region_read vox (fun h => h0 (by rw [h]; rfl)) wholeRegion
    have e : writeRegion vox.NX vox.NY vox.NZ wholeRegion = ⟨0, 0, 0, L.dimX, L.dimY, L.dimZ⟩ := by
      rw [hb]; rfl
    dsimp only at hr
    rw [e] at hr
    obtain ⟨b', hrd, -⟩ := hr ⟨le_of_lt px.1, px.2⟩ ⟨le_of_lt py.1, py.2⟩ ⟨le_of_lt pz.1, pz.2⟩
    exact ⟨b', hrd⟩

/-- **C118.** merge-binvox on the tiles stldice wrote for one of its meshes, if the first file found is a tile that
    lies, in all three directions, at or before every tile with a file and is not empty: there is a successful run, and the
    shell file reads back as exactly the exposed voxels — those of the mesh voxelized without dicing, no seams — that have a
    neighbour, with exact neighbour maps, at their place in the world. -/
theorem dice_then_merge_binvox [FloatText ℚ] [LawfulFloatText ℚ] {load : Bytes → Option (Mesh ℚ)} {bbox : Mesh ℚ → Box ℚ}
    {env : Bytes → Key → FileEnv} (henv : ∀ a t, GoodEnv (env a t)) {fl : DiceFlags ℚ} {fs fs' : FS} {out base : Bytes} {cuts : List Bytes}
    {mesh : Bytes → Mesh ℚ} {L : Layout ℚ} {whole : Bytes → BinVOX ℚ} (job : GoodJob load bbox fl fs base cuts mesh L whole)
    (h : DiceCmd load bbox env fl fs out fs' .done) {a : Bytes} (ha : a ∈ fl.args) {t0 : Key} (h0 : InDims fl.nx fl.ny fl.nz t0)
    (hmax : fl.nx * L.dimX ≤ maxInt ∧ fl.ny * L.dimY ≤ maxInt ∧ fl.nz * L.dimZ ≤ maxInt)
    (hw : ∃ l, InDims L.dimX L.dimY L.dimZ l ∧ Vox (whole a) (inWhole L t0 l)) {ns : List Bytes} {sch : Bytes → AddSched} {force : Bool}
    (hg : Glob fs'.get (jobName (trimStl a) fl.dim fl.nx fl.ny fl.nz) (ascii ".binvox") (tileBin fl a t0 :: ns))
    (hown : ∀ n ∈ ns, ∃ t, InDims fl.nx fl.ny fl.nz t ∧ n = tileBin fl a t)
    (hfirst : ∀ t, InDims fl.nx fl.ny fl.nz t → fs'.get (tileBin fl a t) ≠ none → KLe t0 t)
    (hsch : ∀ t b, InDims fl.nx fl.ny fl.nz t → BinVOX.Read (F := ℚ) (input fs'.get (tileBin fl a t)) wholeRegion = some b →
      (sch (tileBin fl a t)).Valid b ((t.X - t0.X) * L.dimX) ((t.Y - t0.Y) * L.dimY) ((t.Z - t0.Z) * L.dimZ) ∧
      ((tileBin fl a t0 :: ns).map fun n => (sch n).ordLookup.length).sum ≤ (sch (tileBin fl a t)).cap) :
    let P := jobName (trimStl a) fl.dim fl.nx fl.ny fl.nz
    let B := jobBox bbox fl (mesh base)
    let W : Key → Prop := fun k =>
      InDims (fl.nx * L.dimX) (fl.ny * L.dimY) (fl.nz * L.dimZ) (inWhole L t0 k) ∧ Vox (whole a) (inWhole L t0 k)
    ∃ vs : VShell ℚ,
      VShell.Merge ((tileBin fl a t0 :: ns).map fun f => (sch f, BinVOX.Read (F := ℚ) (input fs'.get f) wholeRegion)) = some (some vs) ∧
      vs.NX ≤ (fl.nx - t0.X) * L.dimX ∧ vs.NY ≤ (fl.ny - t0.Y) * L.dimY ∧ vs.NZ ≤ (fl.nz - t0.Z) * L.dimZ ∧
      (NoLongRun ((cells ⟨0, 0, 0, vs.NX, vs.NY, vs.NZ⟩).map (valueAt vs)) →
        ∃ file b', MergeBinvoxRun (F := ℚ) fs'.get sch P force (tileBin fl a t0 :: ns) (put fs'.get (P ++ ascii ".vsh") file) .done ∧
          VShell.Read (F := ℚ) (input (put fs'.get (P ++ ascii ".vsh") file) (P ++ ascii ".vsh")) wholeRegion = some b' ∧
          b'.TX = B.Min.X + t0.X * L.dimX * (boxScale B / fl.dim) ∧ b'.TY = B.Min.Y + t0.Y * L.dimY * (boxScale B / fl.dim) ∧
          b'.TZ = B.Min.Z + t0.Z * L.dimZ * (boxScale B / fl.dim) ∧ b'.VoxelsPerMM = fl.dim / boxScale B ∧
          (b'.Voxels.map VShVoxel.key).Nodup ∧
          ∀ w, w ∈ b'.Voxels ↔ W w.key ∧ Exposed W w.key ∧ NbrSpec W w.key w.N ∧
            ∃ x y z : Int, IsOffset x y z ∧ W (w.key.shift x y z)) := by
  intro P B W
  have nn : ∀ {t}, InDims fl.nx fl.ny fl.nz t → 0 ≤ t.X ∧ 0 ≤ t.Y ∧ 0 ≤ t.Z := by
    intro t ht
    unfold InDims at ht
    omega
  obtain ⟨hreads, -⟩ := diceCmd_tiles henv job h
  obtain ⟨hcont, -⟩ := diceCmd_content henv job.files h
  obtain ⟨⟨px, -⟩, ⟨py, -⟩, ⟨pz, -⟩⟩ := job.dims
  have hdq : (0 : ℚ) < fl.dim := by exact_mod_cast job.dim
  have hsc : 0 < boxScale B := job.scale
  have hv0 : (0 : ℚ) < fl.dim / boxScale B := div_pos hdq hsc
  -- what is in the files
  have hall : ∀ n ∈ tileBin fl a t0 :: ns, ∃ t, InDims fl.nx fl.ny fl.nz t ∧ n = tileBin fl a t := by
    intro n hn
    rcases List.mem_cons.mp hn with rfl | hn
    · exact ⟨t0, h0, rfl⟩
    · exact hown n hn
  have hmem : ∀ t, InDims fl.nx fl.ny fl.nz t → (tileBin fl a t ∈ tileBin fl a t0 :: ns ↔ fs'.get (tileBin fl a t) ≠ none) := by
    intro t ht
    rw [hg.2]
    constructor
    · exact fun h => h.1
    · intro h
      refine ⟨h, tileSuffix t, suffix_no_slash (nn ht), ?_⟩
      rw [tileBin_suffix, List.append_assoc]
  have hfile : ∀ t, InDims fl.nx fl.ny fl.nz t → fs'.get (tileBin fl a t) ≠ none →
      ∃ b, BinVOX.Read (F := ℚ) (input fs'.get (tileBin fl a t)) wholeRegion = some b := by
    intro t ht hne
    obtain ⟨vox, hvox, e⟩ := hcont t ht a ha
    rw [e] at hne
    unfold input
    rw [e]
    exact tile_content_read job.dims.1 job.dims.2.1 job.dims.2.2 hvox hne
  have htile : ∀ n, ∃ t, n ∈ tileBin fl a t0 :: ns → InDims fl.nx fl.ny fl.nz t ∧ n = tileBin fl a t := by
    intro n
    by_cases hn : n ∈ tileBin fl a t0 :: ns
    · obtain ⟨t, ht⟩ := hall n hn
      exact ⟨t, fun _ => ht⟩
    · exact ⟨t0, fun h => absurd h hn⟩
  choose T hT using htile
  have hmodel : ∀ n, ∃ b, n ∈ tileBin fl a t0 :: ns → BinVOX.Read (F := ℚ) (input fs'.get n) wholeRegion = some b ∧
      InPlace L B (T n) b ∧ ∀ l, Vox b l ↔ InDims L.dimX L.dimY L.dimZ l ∧ Vox (whole a) (inWhole L (T n) l) := by
    intro n
    by_cases hn : n ∈ tileBin fl a t0 :: ns
    · obtain ⟨ht, e⟩ := hT n hn
      have hne : fs'.get (tileBin fl a (T n)) ≠ none := by rw [← e]; exact ((hg.2 n).mp hn).1
      obtain ⟨b, hb⟩ := hfile _ ht hne
      rcases hreads _ ht a ha with ⟨h1, -⟩ | ⟨b', h1, h2, h3⟩
      · rw [hb] at h1; cases h1
      · exact ⟨b', fun _ => ⟨by rw [e]; exact h1, h2, h3⟩⟩
    · exact ⟨tileModel L B t0, fun h => absurd h hn⟩
  choose M hM using hmodel
  let info : Bytes → MFile := fun n => ⟨sch n, M n, ⟨(T n).X * L.dimX, (T n).Y * L.dimY, (T n).Z * L.dimZ⟩⟩
  have hT0 : T (tileBin fl a t0) = t0 := by
    obtain ⟨ht, e⟩ := hT (tileBin fl a t0) (by simp)
    exact (tileBin_inj fl a (nn h0) (nn ht) e).symm
  have hvpm : ∀ n ∈ tileBin fl a t0 :: ns, (M n).VoxelsPerMM = fl.dim / boxScale B := by
    intro n hn
    have hp := (hM n hn).2.1
    rw [← (tile_geometry B (boxScale B) fl.dim fl.nx fl.ny fl.nz L job.layout hsc job.dim px (T n) (T n)).1]
    unfold BinVOX.VoxelsPerMM
    rw [hp.nx, hp.ny, hp.nz, hp.scale]
    rfl
  have hlat : ∀ n ∈ tileBin fl a t0 :: ns, OnLattice B.Min.X B.Min.Y B.Min.Z (fl.dim / boxScale B) (info n) := by
    intro n hn
    have hp := (hM n hn).2.1
    obtain ⟨-, g1, g2, g3⟩ := tile_geometry B (boxScale B) fl.dim fl.nx fl.ny fl.nz L job.layout hsc job.dim px (T n) ⟨0, 0, 0⟩
    simp only [Int.cast_zero, zero_mul, add_zero] at g1 g2 g3
    refine ⟨?_, ?_, ?_⟩
    · show (M n).TX = _
      rw [hp.tx, g1]; dsimp only [info]; push_cast; field_simp
    · show (M n).TY = _
      rw [hp.ty, g2]; dsimp only [info]; push_cast; field_simp
    · show (M n).TZ = _
      rw [hp.tz, g3]; dsimp only [info]; push_cast; field_simp
  have hworld : ∀ n ∈ tileBin fl a t0 :: ns, ∀ k, (info n).world k ↔ InTile L.dimX L.dimY L.dimZ (T n) k ∧ Vox (whole a) k := by
    intro n hn k
    obtain ⟨-, hp, hv⟩ := hM n hn
    have ho : (info n).world k ↔ Vox (M n) ⟨k.X - (T n).X * L.dimX, k.Y - (T n).Y * L.dimY, k.Z - (T n).Z * L.dimZ⟩ := by
      have hc : (M n).color = [] := hp.white
      constructor
      · rintro (h | h)
        · exact h
        · change (M n).color.has _ = true at h
          rw [hc] at h; cases h
      · exact Or.inl
    rw [ho, hv]
    have e : inWhole L (T n) ⟨k.X - (T n).X * L.dimX, k.Y - (T n).Y * L.dimY, k.Z - (T n).Z * L.dimZ⟩ = k := by
      obtain ⟨x, y, z⟩ := k
      unfold inWhole Key.shift
      simp
    rw [e]
    refine and_congr_left fun _ => ?_
    unfold InDims InTile
    rw [add_mul, add_mul, add_mul]
    dsimp only
    omega
  have huniq : ∀ n ∈ tileBin fl a t0 :: ns, ∀ n' ∈ tileBin fl a t0 :: ns, ∀ k, (info n).world k → (info n').world k → n = n' := by
    intro n hn n' hn' k h1 h2
    obtain ⟨ht, e⟩ := hT n hn
    obtain ⟨ht', e'⟩ := hT n' hn'
    have := (tiles_cover L.dimX L.dimY L.dimZ fl.nx fl.ny fl.nz px py pz k).2 (T n) ((mem_tileIndices _ _ _ _).mpr ht) (T n')
      ((mem_tileIndices _ _ _ _).mpr ht') ((hworld n hn k).mp h1).1 ((hworld n' hn' k).mp h2).1
    rw [e, e', this]
  have hle : ∀ n ∈ tileBin fl a t0 :: ns, KLe (info (tileBin fl a t0)).t (info n).t := by
    intro n hn
    obtain ⟨ht, e⟩ := hT n hn
    have hk := hfirst (T n) ht (by rw [← e]; exact ((hg.2 n).mp hn).1)
    unfold KLe at hk ⊢
    dsimp only [info]
    rw [hT0]
    exact ⟨Int.mul_le_mul_of_nonneg_right hk.1 px.le, Int.mul_le_mul_of_nonneg_right hk.2.1 py.le, Int.mul_le_mul_of_nonneg_right hk.2.2 pz.le⟩
  have hvalid : ∀ n ∈ tileBin fl a t0 :: ns, (sch n).Valid (M n) ((info n).t.X - (info (tileBin fl a t0)).t.X)
      ((info n).t.Y - (info (tileBin fl a t0)).t.Y) ((info n).t.Z - (info (tileBin fl a t0)).t.Z) ∧
      ((tileBin fl a t0 :: ns).map fun n => (sch n).ordLookup.length).sum ≤ (sch n).cap := by
    intro n hn
    obtain ⟨ht, e⟩ := hT n hn
    have := hsch (T n) (M n) ht (by rw [← e]; exact (hM n hn).1)
    rw [← e] at this
    dsimp only [info]
    rw [hT0, ← sub_mul, ← sub_mul, ← sub_mul]
    exact this
  have h00 : tileBin fl a t0 ∈ tileBin fl a t0 :: ns := by simp
  have hV0 := (hvalid _ h00).1
  rw [sub_self, sub_self, sub_self] at hV0
  have hscale0 : 0 < (M (tileBin fl a t0)).Scale := by
    by_contra hneg
    have hp := (hM _ h00).2.1
    obtain ⟨_, _, _, _, _, _, ev, em, _, _, _, _, _, _, es⟩ := layout_ok job.layout
    have ev' : L.vpmm = fl.dim / boxScale B := ev
    have em' : L.mmpv = ((1 : Int) : ℚ) / L.vpmm := em
    have es' : L.subScale = ((dimOf L.dimX L.dimY L.dimZ : Int) : ℚ) * L.mmpv := es
    have hdd : (0 : ℚ) < ((dimOf L.dimX L.dimY L.dimZ : Int) : ℚ) := by exact_mod_cast dimOf_pos px
    rw [hp.scale, es', em', ev'] at hneg
    apply hneg
    push_cast
    positivity
  have hwhite0 : (M (tileBin fl a t0)).white ≠ [] := by
    obtain ⟨l, hl, hv⟩ := hw
    have : Vox (M (tileBin fl a t0)) l := ((hM _ h00).2.2 l).mpr ⟨hl, by rw [hT0]; exact hv⟩
    intro he
    unfold Vox at this
    rw [he] at this
    cases this
  obtain ⟨vs, m, hmerge, hmle, ⟨n1, hn1, hm1⟩, hleast, hrest⟩ := merge_binvox_file (d := fs'.get) (sch := sch) (pre := P) (force := force)
    B.Min.X B.Min.Y B.Min.Z (fl.dim / boxScale B) hv0 (tileBin fl a t0) ns info
    (fun n hn => by obtain ⟨t, -, rfl⟩ := hall n hn; exact ⟨_, rfl⟩)
    (fun n hn => by
      obtain ⟨h1, h2, -⟩ := hM n hn
      exact ⟨⟨h1, by rw [h2.nx]; exact px, by rw [h2.ny]; exact py, by rw [h2.nz]; exact pz⟩, rfl⟩)
    hscale0 (hlat _ h00) (hvpm _ h00) hwhite0 hV0
    (by
      refine mergeable_above _ _ _ _ ?_ ?_
      · intro f hf
        obtain ⟨n, hn, rfl⟩ := List.mem_map.mp hf
        have hn' := List.mem_cons_of_mem (tileBin fl a t0) hn
        refine ⟨hlat n hn', hvpm n hn', hle n hn', ?_, (hvalid n hn').1, ?_⟩
        · intro k h1 h2
          have := huniq n hn' _ h00 k h1 h2
          subst this
          exact (List.nodup_cons.mp hg.1).1 hn
        · have := (hvalid n hn').2
          rw [List.map_cons, List.sum_cons] at this
          rw [List.map_map]
          exact this
      · rw [List.pairwise_map]
        refine (List.nodup_cons.mp hg.1).2.imp_of_mem ?_
        intro n n' hn hn' hne k h1 h2
        exact hne (huniq n (List.mem_cons_of_mem _ hn) n' (List.mem_cons_of_mem _ hn') k h2 h1))
  have hm : m = ⟨t0.X * L.dimX, t0.Y * L.dimY, t0.Z * L.dimZ⟩ := by
    have h1 := hmle _ h00
    have h2 := hle n1 hn1
    rw [hm1] at h2
    have e0 : (info (tileBin fl a t0)).t = ⟨t0.X * L.dimX, t0.Y * L.dimY, t0.Z * L.dimZ⟩ := by
      dsimp only [info]
      rw [hT0]
    rw [← e0]
    unfold KLe at h1 h2
    generalize (info (tileBin fl a t0)).t = u at h1 h2
    obtain ⟨x, y, z⟩ := m
    obtain ⟨x', y', z'⟩ := u
    simp only [Key.mk.injEq] at *
    omega
  have hunion : ∀ k, (∃ n ∈ tileBin fl a t0 :: ns, (info n).world (k.shift m.X m.Y m.Z)) ↔ W k := by
    intro k
    have ek : k.shift m.X m.Y m.Z = inWhole L t0 k := by rw [hm]; rfl
    rw [ek]
    constructor
    · rintro ⟨n, hn, hk⟩
      obtain ⟨h1, h2⟩ := (hworld n hn _).mp hk
      refine ⟨?_, h2⟩
      exact (tiles_cover L.dimX L.dimY L.dimZ fl.nx fl.ny fl.nz px py pz _).1.mp
        ⟨T n, (mem_tileIndices _ _ _ _).mpr (hT n hn).1, h1⟩
    · rintro ⟨h1, h2⟩
      obtain ⟨t, ht, hin⟩ := (tiles_cover L.dimX L.dimY L.dimZ fl.nx fl.ny fl.nz px py pz _).1.mpr h1
      have ht' := (mem_tileIndices _ _ _ _).mp ht
      have hex : fs'.get (tileBin fl a t) ≠ none := by
        intro hno
        rcases hreads t ht' a ha with ⟨-, h3⟩ | ⟨b, e, -⟩
        · refine h3 ⟨(inWhole L t0 k).X - t.X * L.dimX, (inWhole L t0 k).Y - t.Y * L.dimY, (inWhole L t0 k).Z - t.Z * L.dimZ⟩ ⟨?_, ?_⟩
          · unfold InTile at hin
            rw [add_mul, add_mul, add_mul] at hin
            unfold InDims
            dsimp only
            omega
          · have e : inWhole L t ⟨(inWhole L t0 k).X - t.X * L.dimX, (inWhole L t0 k).Y - t.Y * L.dimY, (inWhole L t0 k).Z - t.Z * L.dimZ⟩ =
                inWhole L t0 k := by
              generalize inWhole L t0 k = q
              obtain ⟨x, y, z⟩ := q
              unfold inWhole Key.shift
              simp
            rw [e]
            exact h2
        · unfold input at e
          rw [hno] at e
          cases e
      have hn := (hmem t ht').mpr hex
      refine ⟨_, hn, (hworld _ hn _).mpr ⟨?_, h2⟩⟩
      obtain ⟨hTt, e⟩ := hT _ hn
      rw [← tileBin_inj fl a (nn ht') (nn hTt) e]
      exact hin
  have hdims : vs.NX ≤ (fl.nx - t0.X) * L.dimX ∧ vs.NY ≤ (fl.ny - t0.Y) * L.dimY ∧ vs.NZ ≤ (fl.nz - t0.Z) * L.dimZ := by
    refine hleast ⟨(fl.nx - t0.X) * L.dimX, (fl.ny - t0.Y) * L.dimY, (fl.nz - t0.Z) * L.dimZ⟩ ?_ ?_
    · have hp := (hM _ h00).2.1
      have h1 : ∀ {n x d : Int}, x < n → 0 < d → d ≤ (n - x) * d := by
        intro n x d h1 h2
        have := Int.mul_le_mul_of_nonneg_right (show 1 ≤ n - x by omega) h2.le
        omega
      unfold InDims at h0
      show (M (tileBin fl a t0)).NX ≤ _ ∧ (M (tileBin fl a t0)).NY ≤ _ ∧ (M (tileBin fl a t0)).NZ ≤ _
      rw [hp.nx, hp.ny, hp.nz]
      exact ⟨h1 (by omega) px, h1 (by omega) py, h1 (by omega) pz⟩
    · intro n hn k hk
      have := (hunion ⟨k.X - m.X, k.Y - m.Y, k.Z - m.Z⟩).mp ⟨n, hn, by
        have e : (⟨k.X - m.X, k.Y - m.Y, k.Z - m.Z⟩ : Key).shift m.X m.Y m.Z = k := by
          obtain ⟨x, y, z⟩ := k
          simp [Key.shift]
        rw [e]; exact hk⟩
      have hI := this.1
      unfold InDims inWhole Key.shift at hI
      rw [hm] at hI ⊢
      dsimp only at hI ⊢
      rw [sub_mul, sub_mul, sub_mul]
      omega
  have hup : ∀ {n x d c : Int}, 0 ≤ x → 0 < d → n * d ≤ maxInt → c ≤ (n - x) * d → c ≤ maxInt := by
    intro n x d c h1 h2 h3 h4
    rw [sub_mul] at h4
    have := Int.mul_nonneg h1 h2.le
    omega
  refine ⟨vs, hmerge, hdims.1, hdims.2.1, hdims.2.2, fun hnl => ?_⟩
  obtain ⟨file, b', r1, r2, r3, r4, r5, r6, r7, r8⟩ := hrest (hup (nn h0).1 px hmax.1 hdims.1) (hup (nn h0).2.1 py hmax.2.1 hdims.2.1)
    (hup (nn h0).2.2 pz hmax.2.2 hdims.2.2) hnl
  have hW : (fun k : Key => ∃ n ∈ tileBin fl a t0 :: ns, (info n).world (k.shift m.X m.Y m.Z)) = W :=
    funext fun k => propext (hunion k)
  refine ⟨file, b', r1, r2, ?_, ?_, ?_, r6, r7, ?_⟩
  · rw [r3, hm]; push_cast; field_simp
  · rw [r4, hm]; push_cast; field_simp
  · rw [r5, hm]; push_cast; field_simp
  · intro w
    have := r8 w
    simp only [hunion] at this
    exact this

/-! ## Non-vacuity -/

/-- There are such choices of the runtime. -/
theorem merge_sched_exists [FloatText ℚ] (fl : DiceFlags ℚ) (a : Bytes) (d : Disk) (off : Key → Key) (c : Nat) (names : List Bytes) :
    ∃ sch : Bytes → AddSched, ∀ t b, InDims fl.nx fl.ny fl.nz t → BinVOX.Read (F := ℚ) (input d (tileBin fl a t)) wholeRegion = some b →
      (sch (tileBin fl a t)).Valid b (off t).X (off t).Y (off t).Z ∧
      c + (names.map fun n => (sch n).ordLookup.length).sum ≤ (sch (tileBin fl a t)).cap := by
  have nn : ∀ {t}, InDims fl.nx fl.ny fl.nz t → 0 ≤ t.X ∧ 0 ≤ t.Y ∧ 0 ≤ t.Z := by
    intro t ht
    unfold InDims at ht
    omega
  have hT : ∀ n, ∃ t, ∀ u, InDims fl.nx fl.ny fl.nz u → n = tileBin fl a u → u = t := by
    intro n
    by_cases h : ∃ t, InDims fl.nx fl.ny fl.nz t ∧ n = tileBin fl a t
    · obtain ⟨t, ht, rfl⟩ := h
      exact ⟨t, fun u hu e => (tileBin_inj fl a (nn ht) (nn hu) e).symm⟩
    · exact ⟨⟨0, 0, 0⟩, fun u hu e => absurd ⟨u, hu, e⟩ h⟩
  choose T hT using hT
  let M : Bytes → BinVOX ℚ := fun n => (BinVOX.Read (F := ℚ) (input d n) wholeRegion).getD (tileModel ⟨0, 0, 0, 0, 0, 0, 0, 0, 0⟩ ⟨⟨0, 0, 0⟩, ⟨0, 0, 0⟩⟩ ⟨0, 0, 0⟩)
  let lk : Bytes → List Key := fun n =>
    (((M n).white.keys ++ (M n).color.keys).map fun k =>
      k.shift (off (T n)).X (off (T n)).Y (off (T n)).Z).dedup
  refine ⟨fun n => ⟨(M n).white.keys, (M n).color.keys, lk n, c + (names.map fun n => (lk n).length).sum⟩, ?_⟩
  intro t b ht hb
  have e1 : M (tileBin fl a t) = b := by
    show (BinVOX.Read (F := ℚ) (input d (tileBin fl a t)) wholeRegion).getD _ = b
    rw [hb]
    rfl
  have e2 : T (tileBin fl a t) = t := (hT _ t ht rfl).symm
  refine ⟨⟨?_, ?_, List.nodup_dedup _, ?_⟩, le_refl _⟩
  · show (M (tileBin fl a t)).white.keys.Perm _
    rw [e1]
  · show (M (tileBin fl a t)).color.keys.Perm _
    rw [e1]
  · intro k
    show k ∈ (((M (tileBin fl a t)).white.keys ++ (M (tileBin fl a t)).color.keys).map _).dedup ↔ _
    rw [List.mem_dedup, List.mem_map, e1, e2]
    constructor
    · rintro ⟨j, hj, rfl⟩
      refine ⟨j, ?_, rfl⟩
      rw [List.mem_append, GoMap.mem_keys_iff, GoMap.mem_keys_iff] at hj
      exact hj
    · rintro ⟨j, hj, rfl⟩
      refine ⟨j, ?_, rfl⟩
      rw [List.mem_append, GoMap.mem_keys_iff, GoMap.mem_keys_iff]
      exact hj

theorem noLongRun_short {vals : List (BitVec 32)} (h : vals.length < 65536) : NoLongRun vals := by
  intro v hv
  have := hv.length_le
  rw [List.length_replicate] at this
  omega

/-- No file of the directory, and no tile of the other mesh, is taken for a tile of `a.stl`. -/
theorem exDir_own [FloatText ℚ] {load : Bytes → Option (Mesh ℚ)} {bbox : Mesh ℚ → Box ℚ}
    {env : Bytes → Key → FileEnv} (henv : ∀ a t, GoodEnv (env a t)) {fl : DiceFlags ℚ} {fs' : FS} {out : Bytes} {cuts : List Bytes}
    {mesh : Bytes → Mesh ℚ} {L : Layout ℚ} {whole : Bytes → BinVOX ℚ} (job : GoodJob load bbox fl exDir (ascii "a.stl") cuts mesh L whole)
    (hcuts : ∀ c ∈ cuts, c = ascii "b.stl") (h : DiceCmd load bbox env fl exDir out fs' .done)
    {n : Bytes} (hn : fs'.get n ≠ none) {mid : Bytes} (e : n = jobName (trimStl (ascii "a.stl")) fl.dim fl.nx fl.ny fl.nz ++ mid ++ ascii ".binvox") :
    ∃ t, InDims fl.nx fl.ny fl.nz t ∧ n = tileBin fl (ascii "a.stl") t := by
  by_contra hno
  push Not at hno
  apply hn
  rw [(diceCmd_content henv job.files h).2 n ?_]
  · refine exDir_get ?_ ?_ <;>
    · intro e'
      rw [e] at e'
      have := congrArg List.getLast? e'
      rw [List.getLast?_append] at this
      exact absurd (show some (120 : UInt8) = some 108 from this) (by decide)
  · intro a ha t ht e'
    rw [job.args] at ha
    rcases List.mem_cons.mp ha with rfl | ha
    · exact hno t ht e'
    · rw [hcuts a ha, e, tileBin_suffix] at e'
      have := congrArg List.head? e'
      exact absurd (show some (97 : UInt8) = some 98 from this) (by decide)

/-- A permutation of the files found is a possible result, too. -/
theorem glob_first {d : Disk} {p ext : Bytes} {names : List Bytes} (h : Glob d p ext names) {n : Bytes} (hn : n ∈ names) :
    Glob d p ext (n :: names.erase n) := by
  have hp := List.perm_cons_erase hn
  exact ⟨hp.nodup_iff.mp h.1, fun m => (hp.mem_iff.symm).trans (h.2 m)⟩

/-- The hypotheses of C118 are met: two walls, one in each tile, with another mesh to cut: the shell file is written and
    can be read, with voxels of both tiles and without the one that the two tiles together enclose. -/
theorem exMergeDice [FloatText ℚ] [LawfulFloatText ℚ] (mB : Mesh ℚ) :
    ∃ (load : Bytes → Option (Mesh ℚ)) (mesh : Bytes → Mesh ℚ) (whole : Bytes → BinVOX ℚ) (out : Bytes) (fs' : FS) (ns : List Bytes)
      (sch : Bytes → AddSched) (file : Bytes) (b' : VShell ℚ),
      GoodJob load (fun _ => ⟨⟨0, 0, 0⟩, ⟨0, 0, 0⟩⟩) exFlags exDir (ascii "a.stl") [ascii "b.stl"] mesh exLayout whole ∧
      DiceCmd load (fun _ => ⟨⟨0, 0, 0⟩, ⟨0, 0, 0⟩⟩) (fun _ _ => ⟨true, [], true⟩) exFlags exDir out fs' .done ∧
      Glob fs'.get (jobName (ascii "a") 4 2 1 1) (ascii ".binvox") (tileBin exFlags (ascii "a.stl") ⟨0, 0, 0⟩ :: ns) ∧
      tileBin exFlags (ascii "a.stl") ⟨1, 0, 0⟩ ∈ ns ∧
      MergeBinvoxRun (F := ℚ) fs'.get sch (jobName (ascii "a") 4 2 1 1) false (tileBin exFlags (ascii "a.stl") ⟨0, 0, 0⟩ :: ns)
        (put fs'.get (jobName (ascii "a") 4 2 1 1 ++ ascii ".vsh") file) .done ∧
      VShell.Read (F := ℚ) (input (put fs'.get (jobName (ascii "a") 4 2 1 1 ++ ascii ".vsh") file)
        (jobName (ascii "a") 4 2 1 1 ++ ascii ".vsh")) wholeRegion = some b' ∧
      b'.TX = 0 ∧ b'.VoxelsPerMM = 1 ∧ (∃ w ∈ b'.Voxels, w.key = ⟨0, 1, 1⟩) ∧
      (∃ w ∈ b'.Voxels, w.key = ⟨2, 1, 1⟩) ∧ ∀ w ∈ b'.Voxels, w.key ≠ ⟨1, 1, 1⟩ := by
  obtain ⟨load, mesh, whole, out, fs', d', -, -, hA, -, job, h, -⟩ := exJob_runs wallMesh mB (fun _ => 0) (fun _ => 0) (fun _ => 0)
  have ha : ascii "a.stl" ∈ exFlags.args := by simp [exFlags]
  have hvox := job.voxelized _ ha
  rw [hA] at hvox
  have hchar : ∀ k, Vox (whole (ascii "a.stl")) k ↔ 0 ≤ k.Z ∧ k.Z < 4 ∧
      ∃ r ∈ sliceRows (wholeModel exLayout (⟨⟨0, 0, 0⟩, ⟨4, 4, 4⟩⟩ : Box ℚ) 2 1 1) wallMesh k.Z, k ∈ r := by
    intro k
    obtain ⟨c, hc, -, -, hv⟩ := voxelize_exact _ _ (by unfold zeroDim; decide) _ hvox
    injection hc with hc
    subst hc
    refine (hv k).trans ?_
    rw [sliceRows_mem]
    exact ⟨fun ⟨h1, h2, h3⟩ => ⟨h1, h2, rfl, h3⟩, fun ⟨h1, h2, _, h3⟩ => ⟨h1, h2, h3⟩⟩
  have v0 : Vox (whole (ascii "a.stl")) ⟨0, 1, 1⟩ := (hchar _).mpr (by decide +kernel)
  have v1 : Vox (whole (ascii "a.stl")) ⟨1, 1, 1⟩ := (hchar _).mpr (by decide +kernel)
  have v2 : Vox (whole (ascii "a.stl")) ⟨2, 1, 1⟩ := (hchar _).mpr (by decide +kernel)
  have v3 : ¬ Vox (whole (ascii "a.stl")) ⟨3, 1, 1⟩ := fun h => absurd ((hchar _).mp h) (by decide +kernel)
  have hEnv : ∀ a t, GoodEnv ((fun _ _ => ⟨true, [], true⟩ : Bytes → Key → FileEnv) a t) := exEnv_good
  have hex : ∀ t l, InDims 2 1 1 t → InDims 2 4 4 l → Vox (whole (ascii "a.stl")) (inWhole exLayout t l) →
      fs'.get (tileBin exFlags (ascii "a.stl") t) ≠ none := by
    intro t l ht hl hv hno
    rcases (diceCmd_tiles hEnv job h).1 t ht _ ha with ⟨-, h2⟩ | ⟨b, e, -⟩
    · exact h2 l ⟨hl, hv⟩
    · unfold input at e
      rw [hno] at e
      cases e
  have i0 : InDims 2 1 1 ⟨0, 0, 0⟩ := by unfold InDims; decide
  have i1 : InDims 2 1 1 ⟨1, 0, 0⟩ := by unfold InDims; decide
  have x0 := hex ⟨0, 0, 0⟩ ⟨1, 1, 1⟩ i0 (by unfold InDims; decide) v1
  have x1 := hex ⟨1, 0, 0⟩ ⟨0, 1, 1⟩ i1 (by unfold InDims; decide) v2
  obtain ⟨names, hg⟩ := glob_exists (finiteDisk_fs fs') (jobName (ascii "a") 4 2 1 1) (ascii ".binvox")
  have hmem : ∀ t, InDims 2 1 1 t → fs'.get (tileBin exFlags (ascii "a.stl") t) ≠ none → tileBin exFlags (ascii "a.stl") t ∈ names := by
    intro t ht hx
    rw [hg.2]
    refine ⟨hx, tileSuffix t, suffix_no_slash ?_, ?_⟩
    · unfold InDims at ht; omega
    · rw [tileBin_suffix, List.append_assoc]; rfl
  have hg' := glob_first hg (hmem _ i0 x0)
  obtain ⟨sch, hsch⟩ := merge_sched_exists exFlags (ascii "a.stl") fs'.get
    (fun t => ⟨(t.X - 0) * 2, (t.Y - 0) * 4, (t.Z - 0) * 4⟩) 0 (tileBin exFlags (ascii "a.stl") ⟨0, 0, 0⟩ :: names.erase (tileBin exFlags (ascii "a.stl") ⟨0, 0, 0⟩))
  obtain ⟨vs, hm, n1, n2, n3, hrest⟩ := dice_then_merge_binvox (force := false) hEnv job h ha (t0 := ⟨0, 0, 0⟩) i0 (by decide)
    ⟨⟨1, 1, 1⟩, by unfold InDims; decide, v1⟩ hg' (by
      intro n hn
      obtain ⟨hx, mid, -, e⟩ := (hg.2 n).mp (List.mem_of_mem_erase hn)
      exact exDir_own hEnv job (by simp) h hx e)
    (by
      intro t ht _
      unfold InDims at ht
      unfold KLe
      dsimp only
      omega) (by
      intro t b ht hb
      have := hsch t b ht hb
      rw [Nat.zero_add] at this
      exact this)
  obtain ⟨file, b', r1, r2, r3, -, -, r6, -, r8⟩ := hrest (noLongRun_short (by
    rw [List.length_map, cells_length]
    have q1 : vs.NX.toNat ≤ 4 := by change vs.NX ≤ 4 at n1; omega
    have q2 : vs.NY.toNat ≤ 4 := by change vs.NY ≤ 4 at n2; omega
    have q3 : vs.NZ.toNat ≤ 4 := by change vs.NZ ≤ 4 at n3; omega
    have := Nat.mul_le_mul (Nat.mul_le_mul q1 q3) q2
    dsimp only
    omega))
  have hin : ∀ k {x y z : Int}, IsOffset x y z → ¬ Vox (whole (ascii "a.stl")) (k.shift x y z) ∨ ¬ InDims 4 4 4 (k.shift x y z) →
      InDims 4 4 4 k → Vox (whole (ascii "a.stl")) k → (∃ x y z : Int, IsOffset x y z ∧ InDims 4 4 4 (k.shift x y z) ∧ Vox (whole (ascii "a.stl")) (k.shift x y z)) →
      ∃ w ∈ b'.Voxels, w.key = k := by
    intro k x y z ho hx hk hv ⟨x', y', z', ho', hi', hv'⟩
    have e0 : ∀ k : Key, inWhole exLayout ⟨0, 0, 0⟩ k = k := by
      intro k
      obtain ⟨x, y, z⟩ := k
      unfold inWhole Key.shift
      simp
    obtain ⟨N, hN⟩ := exists_nbrSpec (fun k => InDims (exFlags.nx * exLayout.dimX) (exFlags.ny * exLayout.dimY) (exFlags.nz * exLayout.dimZ)
      (inWhole exLayout ⟨0, 0, 0⟩ k) ∧ Vox (whole (ascii "a.stl")) (inWhole exLayout ⟨0, 0, 0⟩ k)) k
    refine ⟨⟨k.X, k.Y, k.Z, N⟩, (r8 _).mpr ⟨?_, ⟨x, y, z, ho, ?_⟩, hN, x', y', z', ho', ?_⟩, rfl⟩
    · exact ⟨by rw [e0]; exact hk, by rw [e0]; exact hv⟩
    · rintro ⟨q1, q2⟩
      rw [e0] at q1 q2
      rcases hx with hx | hx
      · exact hx q2
      · exact hx q1
    · exact ⟨by rw [e0]; exact hi', by rw [e0]; exact hv'⟩
  refine ⟨load, mesh, whole, out, fs', _, sch, file, b', job, h, hg', ?_, r1, r2, ?_, ?_, ?_, ?_, ?_⟩
  · refine (List.mem_erase_of_ne ?_).mpr (hmem _ i1 x1)
    decide
  · rw [r3]
    show (0 : ℚ) + ((0 : Int) : ℚ) * ((2 : Int) : ℚ) * (boxScale (⟨⟨0, 0, 0⟩, ⟨4, 4, 4⟩⟩ : Box ℚ) / ((4 : Int) : ℚ)) = 0
    decide +kernel
  · rw [r6]
    show ((4 : Int) : ℚ) / boxScale (⟨⟨0, 0, 0⟩, ⟨4, 4, 4⟩⟩ : Box ℚ) = 1
    decide +kernel
  · refine hin ⟨0, 1, 1⟩ (x := -1) (y := 0) (z := 0) (by unfold IsOffset; decide) (Or.inr (by unfold InDims; decide)) (by unfold InDims; decide) v0
      ⟨1, 0, 0, by unfold IsOffset; decide, by unfold InDims; decide, v1⟩
  · refine hin ⟨2, 1, 1⟩ (x := 1) (y := 0) (z := 0) (by unfold IsOffset; decide) (Or.inl v3) (by unfold InDims; decide) v2
      ⟨-1, 0, 0, by unfold IsOffset; decide, by unfold InDims; decide, (show (⟨2, 1, 1⟩ : Key).shift (-1) 0 0 = ⟨1, 1, 1⟩ by decide) ▸ v1⟩
  · intro w hw e
    obtain ⟨-, ⟨x, y, z, ho, hn⟩, -⟩ := (r8 w).mp hw
    apply hn
    rw [e]
    have hall : ∀ x ∈ [(-1 : Int), 0, 1], ∀ y ∈ [(-1 : Int), 0, 1], ∀ z ∈ [(-1 : Int), 0, 1],
        InDims 4 4 4 (inWhole exLayout ⟨0, 0, 0⟩ ((⟨1, 1, 1⟩ : Key).shift x y z)) ∧
        (0 ≤ 1 + z ∧ 1 + z < 4 ∧ ∃ r ∈ sliceRows (wholeModel exLayout (⟨⟨0, 0, 0⟩, ⟨4, 4, 4⟩⟩ : Box ℚ) 2 1 1) wallMesh (1 + z),
          (⟨1 + x, 1 + y, 1 + z⟩ : Key) ∈ r) := by
      unfold InDims
      decide +kernel
    have hm3 : ∀ x : Int, -1 ≤ x ∧ x ≤ 1 → x ∈ [(-1 : Int), 0, 1] := by
      intro x hx
      simp only [List.mem_cons, List.not_mem_nil, or_false]
      omega
    obtain ⟨q1, q2⟩ := hall x (hm3 x ho.1) y (hm3 y ho.2.1) z (hm3 z ho.2.2.1)
    refine ⟨q1, (hchar _).mpr ?_⟩
    have e1 : inWhole exLayout ⟨0, 0, 0⟩ ((⟨1, 1, 1⟩ : Key).shift x y z) = ⟨1 + x, 1 + y, 1 + z⟩ := by
      unfold inWhole Key.shift
      simp
    rw [e1]
    exact q2

/-! ## Without a tile before all others -/

/-- The flags of `stldice -mbb 0,0,0,2,2,2 -dim 2 -nx 1 -ny 2 -nz 2 a.stl`. -/
def tornFlags : DiceFlags ℚ := ⟨some (some ⟨⟨0, 0, 0⟩, ⟨2, 2, 2⟩⟩), 2, 1, 2, 2, [ascii "a.stl"]⟩

def tornLayout : Layout ℚ := ⟨1, 1, 2, 2, 2, 2, 1, 1, 2⟩

/-- Three small triangles, one in each tile but the first. -/
def tornMesh : Mesh ℚ where
  heap i :=
    let tri (y z : ℚ) : Triangle ℚ :=
      ⟨⟨⟨1 / 2, y + 1 / 4, z + 1 / 4⟩, ⟨0, 0, 0⟩⟩, ⟨⟨1 / 2, y + 3 / 4, z + 1 / 4⟩, ⟨0, 0, 0⟩⟩, ⟨⟨1 / 2, y + 1 / 2, z + 3 / 4⟩, ⟨0, 0, 0⟩⟩⟩
    [tri 0 1, tri 1 0].getD i (tri 1 1)
  Triangles := [0, 1, 2]

theorem torn_rows : (∀ r ∈ sliceRows (tileModel tornLayout (⟨⟨0, 0, 0⟩, ⟨2, 2, 2⟩⟩ : Box ℚ) ⟨0, 0, 0⟩) tornMesh 0, r = []) ∧
    (∃ r ∈ sliceRows (wholeModel tornLayout (⟨⟨0, 0, 0⟩, ⟨2, 2, 2⟩⟩ : Box ℚ) 1 2 2) tornMesh 1, (⟨0, 0, 1⟩ : Key) ∈ r) ∧
    (∃ r ∈ sliceRows (wholeModel tornLayout (⟨⟨0, 0, 0⟩, ⟨2, 2, 2⟩⟩ : Box ℚ) 1 2 2) tornMesh 0, (⟨0, 1, 0⟩ : Key) ∈ r) ∧
    (∃ r ∈ sliceRows (wholeModel tornLayout (⟨⟨0, 0, 0⟩, ⟨2, 2, 2⟩⟩ : Box ℚ) 1 2 2) tornMesh 1, (⟨0, 1, 1⟩ : Key) ∈ r) ∧
    ¬ (∃ r ∈ sliceRows (wholeModel tornLayout (⟨⟨0, 0, 0⟩, ⟨2, 2, 2⟩⟩ : Box ℚ) 1 2 2) tornMesh 1, (⟨1, 0, 1⟩ : Key) ∈ r) ∧
    ¬ (∃ r ∈ sliceRows (wholeModel tornLayout (⟨⟨0, 0, 0⟩, ⟨2, 2, 2⟩⟩ : Box ℚ) 1 2 2) tornMesh 0, (⟨1, 1, 0⟩ : Key) ∈ r) ∧
    ¬ (∃ r ∈ sliceRows (wholeModel tornLayout (⟨⟨0, 0, 0⟩, ⟨2, 2, 2⟩⟩ : Box ℚ) 1 2 2) tornMesh 1, (⟨1, 1, 1⟩ : Key) ∈ r) ∧
    layout (⟨⟨0, 0, 0⟩, ⟨2, 2, 2⟩⟩ : Box ℚ) (boxScale (⟨⟨0, 0, 0⟩, ⟨2, 2, 2⟩⟩ : Box ℚ)) 2 1 2 2 = .ok tornLayout := by decide +kernel

/-- The voxels of a shell of few, scattered voxels. -/
theorem shell_keys {S : Key → Prop} {l : List VShVoxel} (h : IsShell S l) (hS : ∀ k, S k → Exposed S k) (k : Key) :
    (∃ w ∈ l, w.key = k) ↔ S k := by
  constructor
  · rintro ⟨w, hw, rfl⟩
    exact ((h.2 w).mp hw).1
  · intro hk
    obtain ⟨N, hN⟩ := exists_nbrSpec S k
    exact ⟨⟨k.X, k.Y, k.Z, N⟩, (h.2 _).mpr ⟨hk, hS k hk, hN⟩, rfl⟩

theorem shell_length {S : Key → Prop} {l : List VShVoxel} (h : IsShell S l) (ks : List Key) (hk : ∀ k, S k → k ∈ ks) :
    l.length ≤ ks.length := by
  rw [← List.length_map VShVoxel.key]
  refine (List.subperm_of_subset h.1 ?_).length_le
  intro k hkm
  obtain ⟨w, hw, rfl⟩ := List.mem_map.mp hkm
  exact hk _ ((h.2 w).mp hw).1

theorem exposed_mono {S S' : Key → Prop} (h : ∀ k, S' k → S k) {k : Key} (he : Exposed S k) : Exposed S' k := by
  obtain ⟨x, y, z, ho, hn⟩ := he
  exact ⟨x, y, z, ho, fun hs => hn (h _ hs)⟩

/-- One voxel at the corner of a tile of 2 × 1 × 1 voxels of 1 mm. -/
structure TornTile (b : BinVOX ℚ) (tx ty tz : ℚ) : Prop where
  tx : b.TX = tx
  ty : b.TY = ty
  tz : b.TZ = tz
  scale : 0 < b.Scale
  dim : 0 < b.Dim
  vpmm : b.VoxelsPerMM = 1
  white : b.white ≠ []
  occ : ∀ k, Occ b k ↔ k = ⟨0, 0, 0⟩

/-- Three such tiles, none before the others: the third is put in another place, relative to the first two, than it has. -/
theorem torn_merge {b1 b2 b3 : BinVOX ℚ} {s1 s2 s3 : AddSched} (h1 : TornTile b1 0 0 1) (h2 : TornTile b2 0 1 0) (h3 : TornTile b3 0 1 1)
    (v1 : s1.Valid b1 0 0 0) (v2 : s2.Valid b2 0 0 0) (v3 : s3.Valid b3 0 1 1) (c2 : 3 ≤ s2.cap) (c3 : 3 ≤ s3.cap) :
    ∃ vs, VShell.Merge [(s1, some b1), (s2, some b2), (s3, some b3)] = some (some vs) ∧
      ∀ k, (∃ w ∈ vs.Voxels, w.key = k) ↔ k = ⟨0, -1, 1⟩ ∨ k = ⟨0, 0, 0⟩ ∨ k = ⟨0, 1, 1⟩ := by
  have hlen : ∀ {s : AddSched} {b : BinVOX ℚ} {x y z : Int}, s.Valid b x y z → (∀ k, Occ b k ↔ k = ⟨0, 0, 0⟩) → s.ordLookup.length ≤ 1 := by
    intro s b x y z hv ho
    have : s.ordLookup.length ≤ [(⟨0, 0, 0⟩ : Key).shift x y z].length := by
      refine (List.subperm_of_subset hv.nodup ?_).length_le
      intro k hk
      obtain ⟨j, hj, rfl⟩ := (hv.lookup k).mp hk
      rw [(ho j).mp hj]
      simp
    exact this
  -- the first
  obtain ⟨a1, e1, sh1, t1, t1', t1''⟩ := new_shell_exact s1 b1 h1.white v1
  have hadd1 := e1
  unfold VShell.New at hadd1
  have hl1 : b1.white.length > 0 := List.length_pos_iff.mpr h1.white
  dsimp only at hadd1
  rw [if_pos hl1] at hadd1
  obtain ⟨r1, r1', r1''⟩ := add_keeps_resolution s1 _ a1 b1 (by show 0 < b1.Scale; exact h1.scale) (by show 0 < b1.Dim; exact h1.dim) hadd1
  have vp1 : a1.VoxelsPerMM = 1 := by rw [r1, ← h1.vpmm]; rfl
  have ne1 : a1.Voxels ≠ [] := isShell_ne_nil sh1 [⟨0, 0, 0⟩] (fun k hk => by simp [(h1.occ k).mp hk]) (k := ⟨0, 0, 0⟩) ((h1.occ _).mpr rfl)
  -- the second
  have d1 : displacement a1 b2 = ⟨0, 1, -1⟩ := by
    apply displacement_lattice
    · rw [t1, h1.tx, h2.tx, vp1]; norm_num
    · rw [t1', h1.ty, h2.ty, vp1]; norm_num
    · rw [t1'', h1.tz, h2.tz, vp1]; norm_num
  have m1 : newMove (⟨0, 1, -1⟩ : Key) = ⟨0, 0, 0⟩ := by decide
  have o1 : oldMove (⟨0, 1, -1⟩ : Key) = ⟨0, -1, 1⟩ := by decide
  obtain ⟨a2, hadd2⟩ : ∃ a2, a1.Add s2 b2 = some a2 := by
    rw [Add_eq _ _ _ ne1, vp1, h2.vpmm]
    simp only [ne_eq, not_true, if_false]
    exact ⟨_, rfl⟩
  have sh2 := add_shell_exact s2 a1 a2 b2 _ sh1 ne1 (by rw [d1, m1]; exact v2) (by
    rw [d1, m1, o1]
    intro k hk hk'
    have q := (h2.occ _).mp hk
    have q' := (h1.occ _).mp hk'
    simp only [Key.mk.injEq] at q q'
    omega) (by
    have := shell_length sh1 [⟨0, 0, 0⟩] (fun k hk => by simp [(h1.occ k).mp hk])
    have := hlen v2 h2.occ
    simp only [List.length_singleton] at *
    omega) hadd2
  have S2 : ∀ k, KUnion (Moved (Occ b1) (oldMove (displacement a1 b2))) (Moved (Occ b2) (newMove (displacement a1 b2))) k ↔
      k = ⟨0, -1, 1⟩ ∨ k = ⟨0, 0, 0⟩ := by
    intro k
    rw [d1, m1, o1]
    unfold KUnion Moved
    rw [h1.occ, h2.occ]
    obtain ⟨x, y, z⟩ := k
    simp only [Key.mk.injEq]
    omega
  replace sh2 : IsShell (fun k => k = ⟨0, -1, 1⟩ ∨ k = ⟨0, 0, 0⟩) a2.Voxels := (isShell_congr S2 _).mp sh2
  obtain ⟨t2, t2', t2''⟩ := add_T s2 a1 a2 b2 ne1 hadd2
  obtain ⟨r2, r2', r2''⟩ := add_keeps_resolution s2 a1 a2 b2 r1' r1'' hadd2
  rw [vp1] at r2
  have ne2 : a2.Voxels ≠ [] := isShell_ne_nil sh2 [⟨0, -1, 1⟩, ⟨0, 0, 0⟩] (fun k hk => by simpa using hk) (k := ⟨0, 0, 0⟩) (Or.inr rfl)
  -- the third
  have d2 : displacement a2 b3 = ⟨0, 1, 1⟩ := by
    apply displacement_lattice
    · rw [t2, t1, h1.tx, h2.tx, h3.tx, r2]; norm_num
    · rw [t2', t1', h1.ty, h2.ty, h3.ty, r2]; norm_num
    · rw [t2'', t1'', h1.tz, h2.tz, h3.tz, r2]; norm_num
  have m2 : newMove (⟨0, 1, 1⟩ : Key) = ⟨0, 1, 1⟩ := by decide
  have o2 : oldMove (⟨0, 1, 1⟩ : Key) = ⟨0, 0, 0⟩ := by decide
  obtain ⟨a3, hadd3⟩ : ∃ a3, a2.Add s3 b3 = some a3 := by
    rw [Add_eq _ _ _ ne2, r2, h3.vpmm]
    simp only [ne_eq, not_true, if_false]
    exact ⟨_, rfl⟩
  have sh3 := add_shell_exact s3 a2 a3 b3 _ sh2 ne2 (by rw [d2, m2]; exact v3) (by
    rw [d2, m2, o2]
    intro k hk hk'
    have q := (h3.occ _).mp hk
    unfold Moved at hk'
    simp only [Key.mk.injEq] at q hk'
    omega) (by
    have := shell_length sh2 [⟨0, -1, 1⟩, ⟨0, 0, 0⟩] (fun k hk => by simpa using hk)
    have := hlen v3 h3.occ
    simp only [List.length_cons, List.length_nil] at *
    omega) hadd3
  have S3 : ∀ k, KUnion (Moved (fun k => k = ⟨0, -1, 1⟩ ∨ k = ⟨0, 0, 0⟩) (oldMove (displacement a2 b3)))
      (Moved (Occ b3) (newMove (displacement a2 b3))) k ↔ k = ⟨0, -1, 1⟩ ∨ k = ⟨0, 0, 0⟩ ∨ k = ⟨0, 1, 1⟩ := by
    intro k
    rw [d2, m2, o2]
    unfold KUnion Moved
    rw [h3.occ]
    obtain ⟨x, y, z⟩ := k
    simp only [Key.mk.injEq]
    omega
  replace sh3 : IsShell (fun k => k = ⟨0, -1, 1⟩ ∨ k = ⟨0, 0, 0⟩ ∨ k = ⟨0, 1, 1⟩) a3.Voxels := (isShell_congr S3 _).mp sh3
  refine ⟨a3, ?_, fun k => shell_keys sh3 ?_ k⟩
  · unfold VShell.Merge
    simp only [List.foldl_cons, List.foldl_nil, VShell.mergeStep, e1, Option.map_some, hadd2, hadd3]
  · intro k hk
    refine ⟨1, 0, 0, by unfold IsOffset; decide, ?_⟩
    obtain ⟨x, y, z⟩ := k
    unfold Key.shift
    simp only [Key.mk.injEq] at hk ⊢
    omega

/-- Map orders and slices with room for the three tiles: the third is moved, the others are not. -/
def TornSched [FloatText ℚ] (d : Disk) (sch : Bytes → AddSched) : Prop :=
  ∀ t b, InDims 1 2 2 t → BinVOX.Read (F := ℚ) (input d (tileBin tornFlags (ascii "a.stl") t)) wholeRegion = some b →
    (if t = ⟨0, 1, 1⟩ then (sch (tileBin tornFlags (ascii "a.stl") t)).Valid b 0 1 1
      else (sch (tileBin tornFlags (ascii "a.stl") t)).Valid b 0 0 0) ∧ 3 ≤ (sch (tileBin tornFlags (ascii "a.stl") t)).cap

/-- **C118 (where it fails).** A model without voxels in the tile of the lowest corner: stldice writes the other three tiles, and
    merge-binvox, whatever the map orders, succeeds on them (in the order of `filepath.Glob`) with a shell that is not the model, not
    even moved: the tiles are no longer where they were relative to each other. -/
theorem dice_then_merge_torn [FloatText ℚ] [LawfulFloatText ℚ] :
    ∃ (load : Bytes → Option (Mesh ℚ)) (whole : Bytes → BinVOX ℚ) (out : Bytes) (fs' : FS) (names : List Bytes),
      GoodJob load (fun _ => ⟨⟨0, 0, 0⟩, ⟨0, 0, 0⟩⟩) tornFlags exDir (ascii "a.stl") [] (fun _ => tornMesh) tornLayout whole ∧
      DiceCmd load (fun _ => ⟨⟨0, 0, 0⟩, ⟨0, 0, 0⟩⟩) (fun _ _ => ⟨true, [], true⟩) tornFlags exDir out fs' .done ∧
      Glob fs'.get (jobName (ascii "a") 2 1 2 2) (ascii ".binvox") names ∧ names.Pairwise (· < ·) ∧
      names = [tileBin tornFlags (ascii "a.stl") ⟨0, 0, 1⟩, tileBin tornFlags (ascii "a.stl") ⟨0, 1, 0⟩, tileBin tornFlags (ascii "a.stl") ⟨0, 1, 1⟩] ∧
      (∃ sch, TornSched fs'.get sch) ∧
      ∀ sch : Bytes → AddSched, TornSched fs'.get sch →
        ∃ vs : VShell ℚ, VShell.Merge (names.map fun f => (sch f, BinVOX.Read (F := ℚ) (input fs'.get f) wholeRegion)) = some (some vs) ∧
          ∀ m : Key, ¬ ∀ k, (∃ w ∈ vs.Voxels, w.key.shift m.X m.Y m.Z = k) ↔ Vox (whole (ascii "a.stl")) k := by
  obtain ⟨w0, w1, w2, w3, w4, w5, w6, hL⟩ := torn_rows
  let load : Bytes → Option (Mesh ℚ) := fun _ => some tornMesh
  let bbox : Mesh ℚ → Box ℚ := fun _ => ⟨⟨0, 0, 0⟩, ⟨0, 0, 0⟩⟩
  obtain ⟨whole, hwhole⟩ : ∃ w, VoxelizeRun (wholeModel tornLayout (⟨⟨0, 0, 0⟩, ⟨2, 2, 2⟩⟩ : Box ℚ) 1 2 2) tornMesh (.ok w) := by
    obtain ⟨⟨o, ho⟩, -, h3, -⟩ := voxelize_defined (wholeModel tornLayout (⟨⟨0, 0, 0⟩, ⟨2, 2, 2⟩⟩ : Box ℚ) 1 2 2) tornMesh
    obtain ⟨c, hc, -⟩ := voxelize_exact _ _ (by unfold zeroDim; decide) _ ho
    exact ⟨c, hc ▸ ho⟩
  have hchar : ∀ k, Vox whole k ↔ 0 ≤ k.Z ∧ k.Z < 2 ∧
      ∃ r ∈ sliceRows (wholeModel tornLayout (⟨⟨0, 0, 0⟩, ⟨2, 2, 2⟩⟩ : Box ℚ) 1 2 2) tornMesh k.Z, k ∈ r := by
    intro k
    obtain ⟨c, hc, -, -, hv⟩ := voxelize_exact _ _ (by unfold zeroDim; decide) _ hwhole
    injection hc with hc
    subst hc
    refine (hv k).trans ?_
    rw [sliceRows_mem]
    exact ⟨fun ⟨h1, h2, h3⟩ => ⟨h1, h2, rfl, h3⟩, fun ⟨h1, h2, _, h3⟩ => ⟨h1, h2, h3⟩⟩
  have x1 : Vox whole ⟨0, 0, 1⟩ := (hchar _).mpr ⟨by decide, by decide, w1⟩
  have x2 : Vox whole ⟨0, 1, 0⟩ := (hchar _).mpr ⟨by decide, by decide, w2⟩
  have x3 : Vox whole ⟨0, 1, 1⟩ := (hchar _).mpr ⟨by decide, by decide, w3⟩
  have y1 : ¬ Vox whole ⟨1, 0, 1⟩ := fun h => w4 ((hchar _).mp h).2.2
  have y2 : ¬ Vox whole ⟨1, 1, 0⟩ := fun h => w5 ((hchar _).mp h).2.2
  have y3 : ¬ Vox whole ⟨1, 1, 1⟩ := fun h => w6 ((hchar _).mp h).2.2
  have job : GoodJob load bbox tornFlags exDir (ascii "a.stl") [] (fun _ => tornMesh) tornLayout (fun _ => whole) := by
    refine ⟨rfl, by decide, ?_, by decide, by decide, ?_, ?_, hL, by decide, fun _ _ => hwhole, ?_, ?_⟩
    · unfold Plain
      decide
    · intro a ha
      have : a = ascii "a.stl" := by simpa [tornFlags] using ha
      subst this
      rfl
    · show (0 : ℚ) < boxScale (⟨⟨0, 0, 0⟩, ⟨2, 2, 2⟩⟩ : Box ℚ)
      decide +kernel
    · intro a _ t _
      exact exDir_get (fun e => tileStl_ne_bin (ascii "a") _ e.symm) (fun e => tileStl_ne_bin (ascii "b") _ e.symm)
    · intro mid
      refine exDir_get ?_ ?_ <;>
      · intro e
        have := congrArg (fun l => l[1]?) e
        exact absurd (show some (45 : UInt8) = some 46 from this) (by decide)
  have hEnv : ∀ a t, GoodEnv ((fun _ _ => ⟨true, [], true⟩ : Bytes → Key → FileEnv) a t) := exEnv_good
  obtain ⟨out, fs', h⟩ := dice_job_succeeds hEnv job (by decide) (by decide)
  have ha : ascii "a.stl" ∈ tornFlags.args := by simp [tornFlags]
  have hfile : ∀ t, InDims 1 2 2 t → Vox whole (inWhole tornLayout t ⟨0, 0, 0⟩) → ¬ Vox whole (inWhole tornLayout t ⟨1, 0, 0⟩) →
      fs'.get (tileBin tornFlags (ascii "a.stl") t) ≠ none ∧
      ∃ b, BinVOX.Read (F := ℚ) (input fs'.get (tileBin tornFlags (ascii "a.stl") t)) wholeRegion = some b ∧
        TornTile b 0 t.Y t.Z := by
    intro t ht hv0 hv1
    rcases (diceCmd_tiles hEnv job h).1 t ht _ ha with ⟨-, h2⟩ | ⟨b, e, hp, hv⟩
    · exact absurd ⟨by unfold InDims; decide, hv0⟩ (h2 ⟨0, 0, 0⟩)
    · have hvb : ∀ k, Vox b k ↔ k = ⟨0, 0, 0⟩ := by
        intro k
        rw [hv]
        constructor
        · rintro ⟨hd, hw⟩
          obtain ⟨x, y, z⟩ := k
          unfold InDims at hd
          dsimp only [tornLayout] at hd
          have hy : y = 0 := by omega
          have hz : z = 0 := by omega
          have hx : x = 0 ∨ x = 1 := by omega
          subst hy hz
          rcases hx with rfl | rfl
          · rfl
          · exact absurd hw hv1
        · rintro rfl
          exact ⟨by unfold InDims; decide, hv0⟩
      refine ⟨?_, b, e, ?_⟩
      · intro hno
        unfold input at e
        rw [hno] at e
        cases e
      · refine ⟨?_, ?_, ?_, ?_, ?_, ?_, ?_, ?_⟩
        · rw [hp.tx]
          show (0 : ℚ) + ((t.X * 2 : Int) : ℚ) * 1 = 0
          have : t.X = 0 := by unfold InDims at ht; omega
          rw [this]
          norm_num
        · rw [hp.ty]
          show (0 : ℚ) + ((t.Y * 1 : Int) : ℚ) * 1 = t.Y
          push_cast
          ring
        · rw [hp.tz]
          show (0 : ℚ) + ((t.Z * 1 : Int) : ℚ) * 1 = t.Z
          push_cast
          ring
        · rw [hp.scale]
          show (0 : ℚ) < 2
          norm_num
        · unfold BinVOX.Dim
          rw [hp.nx, hp.ny, hp.nz]
          decide
        · unfold BinVOX.VoxelsPerMM
          rw [hp.nx, hp.ny, hp.nz, hp.scale]
          decide +kernel
        · intro he
          have := (hvb ⟨0, 0, 0⟩).mpr rfl
          unfold Vox at this
          rw [he] at this
          cases this
        · intro k
          rw [← hvb]
          have hc : b.color = [] := hp.white
          constructor
          · rintro (h | h)
            · exact h
            · rw [hc] at h; cases h
          · exact Or.inl
  have i1 : InDims 1 2 2 ⟨0, 0, 1⟩ := by unfold InDims; decide
  have i2 : InDims 1 2 2 ⟨0, 1, 0⟩ := by unfold InDims; decide
  have i3 : InDims 1 2 2 ⟨0, 1, 1⟩ := by unfold InDims; decide
  obtain ⟨f1, b1, e1, t1⟩ := hfile ⟨0, 0, 1⟩ i1 x1 y1
  obtain ⟨f2, b2, e2, t2⟩ := hfile ⟨0, 1, 0⟩ i2 x2 y2
  obtain ⟨f3, b3, e3, t3⟩ := hfile ⟨0, 1, 1⟩ i3 x3 y3
  have f0 : fs'.get (tileBin tornFlags (ascii "a.stl") ⟨0, 0, 0⟩) = none := by
    obtain ⟨vox, hvox, e⟩ := (diceCmd_content hEnv job.files h).1 ⟨0, 0, 0⟩ (by unfold InDims; decide) _ ha
    rw [e]
    have hno : vox.white = [] := by
      obtain ⟨c, hc, -, -, hv⟩ := voxelize_exact _ _ (by unfold zeroDim; decide) _ hvox
      injection hc with hc
      subst hc
      cases hw : vox.white with
      | nil => rfl
      | cons p l =>
        exfalso
        have hm : vox.white.has p.1 = true := by
          rw [← GoMap.mem_keys_iff, hw]
          exact List.mem_cons_self
        obtain ⟨q1, q2, q3⟩ := (hv p.1).mp hm
        have hz : p.1.Z = 0 := by change p.1.Z < 1 at q2; omega
        rw [hz] at q3
        obtain ⟨r, hr, hk⟩ := (sliceRows_mem _ _ 0 p.1).mpr ⟨hz, q3⟩
        rw [w0 r hr] at hk
        cases hk
    unfold tileContent
    rw [hno]
    rfl
  refine ⟨load, fun _ => whole, out, fs', _, job, h, ?_, ?_, rfl, ?_, ?_⟩
  · refine ⟨by decide, fun n => ?_⟩
    constructor
    · intro hn
      have hp : ∀ t, InDims 1 2 2 t → ∃ mid, (47 : UInt8) ∉ mid ∧ tileBin tornFlags (ascii "a.stl") t =
          jobName (ascii "a") 2 1 2 2 ++ mid ++ ascii ".binvox" := by
        intro t ht
        refine ⟨tileSuffix t, suffix_no_slash ?_, ?_⟩
        · unfold InDims at ht; omega
        · rw [tileBin_suffix, List.append_assoc]; rfl
      simp only [List.mem_cons, List.not_mem_nil, or_false] at hn
      rcases hn with rfl | rfl | rfl
      · exact ⟨f1, hp _ i1⟩
      · exact ⟨f2, hp _ i2⟩
      · exact ⟨f3, hp _ i3⟩
    · rintro ⟨hn, mid, -, e⟩
      obtain ⟨t, ht, rfl⟩ := exDir_own hEnv job (by simp) h hn e
      obtain ⟨x, y, z⟩ := t
      unfold InDims at ht
      dsimp only [tornFlags] at ht
      have hx : x = 0 := by omega
      have hy : y = 0 ∨ y = 1 := by omega
      have hz : z = 0 ∨ z = 1 := by omega
      subst hx
      rcases hy with rfl | rfl <;> rcases hz with rfl | rfl
      · exact absurd f0 hn
      · simp
      · simp
      · simp
  · decide
  · obtain ⟨sch, hs⟩ := merge_sched_exists tornFlags (ascii "a.stl") fs'.get (fun t => if t = ⟨0, 1, 1⟩ then ⟨0, 1, 1⟩ else ⟨0, 0, 0⟩) 3 []
    refine ⟨sch, ?_⟩
    intro t b ht hb
    obtain ⟨q1, q2⟩ := hs t b ht hb
    refine ⟨?_, by simpa using q2⟩
    by_cases ht : t = ⟨0, 1, 1⟩
    · rw [if_pos ht] at q1 ⊢; exact q1
    · rw [if_neg ht] at q1 ⊢; exact q1
  · intro sch hsch
    have g1 := hsch _ _ i1 e1
    have g2 := hsch _ _ i2 e2
    have g3 := hsch _ _ i3 e3
    rw [if_neg (by decide)] at g1 g2
    rw [if_pos rfl] at g3
    norm_num at t1 t2 t3
    obtain ⟨vs, hm, hk⟩ := torn_merge t1 t2 t3 g1.1 g2.1 g3.1 g2.2 g3.2
    refine ⟨vs, ?_, ?_⟩
    · rw [← hm]
      simp only [List.map_cons, List.map_nil, e1, e2, e3]
    · intro m hall
      obtain ⟨w, hw, ew⟩ := (hall _).mpr x2
      obtain ⟨w', hw', ew'⟩ := (hall _).mpr x3
      have q := (hk _).mp ⟨w, hw, rfl⟩
      have q' := (hk _).mp ⟨w', hw', rfl⟩
      unfold Key.shift at ew ew'
      generalize w.key = k at *
      generalize w'.key = k' at *
      obtain ⟨x, y, z⟩ := k
      obtain ⟨x', y', z'⟩ := k'
      simp only [Key.mk.injEq] at q q' ew ew'
      omega

end Cmd
end StlDice
