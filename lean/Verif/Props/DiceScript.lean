import Verif.Model.Script
import Verif.Props.DiceRerun
import Verif.Props.ToMesh
import Verif.Props.VoxcutOut
import Verif.Props.MergeStlCmd
import Verif.Props.VoxcutDice

/-! # C78: stldice and then its script -/

namespace StlDice
namespace Spec
open BinVOX

/-- A non-empty file name of letters, digits, dots, dashes, underscores and slashes that does not begin with a dash
    and is not just `.stl`: neither bash nor `filepath.Glob` nor the package flag sees anything special in it
    or in the names made from it. -/
def Plain (n : Bytes) : Prop :=
  (∀ c ∈ n, (48 ≤ c ∧ c ≤ 57) ∨ (65 ≤ c ∧ c ≤ 90) ∨ (97 ≤ c ∧ c ≤ 122) ∨ c = 45 ∨ c = 46 ∨ c = 47 ∨ c = 95) ∧
  n.head? ≠ some 45 ∧ n ≠ [] ∧ n ≠ ascii ".stl"

/-- The box the job is diced in: the flag, or the bounding box of the first mesh. -/
def jobBox {F : Type} (bbox : Mesh F → Box F) (fl : Cmd.DiceFlags F) (base : Mesh F) : Box F := fl.mbb.join.getD (bbox base)

/-- The name of the tile file of an argument. -/
def tileBin {F : Type} (fl : Cmd.DiceFlags F) (a : Bytes) (t : Key) : Bytes :=
  tileName (jobName (trimStl a) fl.dim fl.nx fl.ny fl.nz) t ++ ascii ".binvox"

/-- The name of the STL file of a tile. -/
def tileStl {F : Type} (fl : Cmd.DiceFlags F) (t : Key) : Bytes := tileName (outName fl) t ++ ascii ".stl"

/-- What a job needs of its files, for any arithmetic: the arguments are files with distinct plain names that can be
    loaded, the numbers are positive, nothing is left over from earlier jobs of the same name. -/
structure JobFiles {F : Type} [GoFloat F] (load : Bytes → Option (Mesh F)) (bbox : Mesh F → Box F) (fl : Cmd.DiceFlags F) (fs : FS)
    (base : Bytes) (cuts : List Bytes) (mesh : Bytes → Mesh F) (L : Layout F) : Prop where
  args : fl.args = base :: cuts
  names : (fl.args.map trimStl).Nodup
  plain : ∀ a ∈ fl.args, Plain a
  dim : 0 < fl.dim
  divs : 0 < fl.nx ∧ 0 < fl.ny ∧ 0 < fl.nz
  loads : ∀ a ∈ fl.args, (fs.get a).bind load = some (mesh a)
  layout : layout (jobBox bbox fl (mesh base)) (boxScale (jobBox bbox fl (mesh base))) fl.dim fl.nx fl.ny fl.nz = .ok L
  dims : (0 < L.dimX ∧ L.dimX ≤ maxInt) ∧ (0 < L.dimY ∧ L.dimY ≤ maxInt) ∧ (0 < L.dimZ ∧ L.dimZ ≤ maxInt)
  freshTiles : ∀ a ∈ fl.args, ∀ t, InDims fl.nx fl.ny fl.nz t → fs.get (tileBin fl a t) = none
  freshStl : ∀ mid, fs.get (outName fl ++ mid ++ ascii ".stl") = none

/-- A job as it is meant: the arguments are files with distinct plain names that can be loaded, the box and
    the numbers are positive, nothing is left over from earlier jobs of the same name.  `mesh` are the
    meshes, `L` the layout and `whole a` the mesh of `a` voxelized without dicing. -/
structure GoodJob (load : Bytes → Option (Mesh ℚ)) (bbox : Mesh ℚ → Box ℚ) (fl : Cmd.DiceFlags ℚ) (fs : FS) (base : Bytes)
    (cuts : List Bytes) (mesh : Bytes → Mesh ℚ) (L : Layout ℚ) (whole : Bytes → BinVOX ℚ) : Prop where
  args : fl.args = base :: cuts
  names : (fl.args.map trimStl).Nodup
  plain : ∀ a ∈ fl.args, Plain a
  dim : 0 < fl.dim
  divs : 0 < fl.nx ∧ 0 < fl.ny ∧ 0 < fl.nz
  loads : ∀ a ∈ fl.args, (fs.get a).bind load = some (mesh a)
  scale : 0 < boxScale (jobBox bbox fl (mesh base))
  layout : layout (jobBox bbox fl (mesh base)) (boxScale (jobBox bbox fl (mesh base))) fl.dim fl.nx fl.ny fl.nz = .ok L
  dims : (0 < L.dimX ∧ L.dimX ≤ maxInt) ∧ (0 < L.dimY ∧ L.dimY ≤ maxInt) ∧ (0 < L.dimZ ∧ L.dimZ ≤ maxInt)
  voxelized : ∀ a ∈ fl.args, VoxelizeRun (wholeModel L (jobBox bbox fl (mesh base)) fl.nx fl.ny fl.nz) (mesh a) (.ok (whole a))
  freshTiles : ∀ a ∈ fl.args, ∀ t, InDims fl.nx fl.ny fl.nz t → fs.get (tileBin fl a t) = none
  freshStl : ∀ mid, fs.get (outName fl ++ mid ++ ascii ".stl") = none

theorem GoodJob.files {load : Bytes → Option (Mesh ℚ)} {bbox : Mesh ℚ → Box ℚ} {fl : Cmd.DiceFlags ℚ} {fs : FS} {base : Bytes}
    {cuts : List Bytes} {mesh : Bytes → Mesh ℚ} {L : Layout ℚ} {whole : Bytes → BinVOX ℚ}
    (j : GoodJob load bbox fl fs base cuts mesh L whole) : JobFiles load bbox fl fs base cuts mesh L :=
  ⟨j.args, j.names, j.plain, j.dim, j.divs, j.loads, j.layout, j.dims, j.freshTiles, j.freshStl⟩

/-- What should be left at `k`: a voxel of the base and of none of the cuts. -/
def Left {F : Type} (base : Bytes) (cuts : List Bytes) (whole : Bytes → BinVOX F) (k : Key) : Prop :=
  Vox (whole base) k ∧ ∀ c ∈ cuts, ¬ Vox (whole c) k

/-- Voxel `l` of tile `t`, as a voxel of the whole. -/
def inWhole {F : Type} (L : Layout F) (t l : Key) : Key := l.shift (t.X * L.dimX) (t.Y * L.dimY) (t.Z * L.dimZ)

/-- What should be left at place `l` of tile `t`. -/
def TileLeft {F : Type} (L : Layout F) (base : Bytes) (cuts : List Bytes) (whole : Bytes → BinVOX F) (t l : Key) : Prop :=
  InDims L.dimX L.dimY L.dimZ l ∧ Left base cuts whole (inWhole L t l)

end Spec

namespace Cmd
open Spec BinVOX

/-! ## The script's text back to words -/

theorem splitLines_cons (a rest : Bytes) (ha : (10 : UInt8) ∉ a) : splitLines (a ++ 10 :: rest) = a :: splitLines rest := by
  induction a with
  | nil =>
    show splitLines (10 :: rest) = _
    rw [splitLines, if_pos rfl]
  | cons c cs ih =>
    rw [List.mem_cons, not_or] at ha
    show splitLines (c :: (cs ++ 10 :: rest)) = _
    rw [splitLines, if_neg (fun h => ha.1 h.symm), ih ha.2]

theorem joinSp_intersperse : ∀ ws : List Bytes, joinSp ws = (ws.intersperse [32]).flatten := by
  intro ws
  induction ws with
  | nil => rfl
  | cons a l ih =>
    cases l with
    | nil => simp [joinSp]
    | cons b l =>
      rw [joinSp, List.intersperse_cons_cons, List.flatten_cons, List.flatten_cons, ih]
      simp

theorem mem_flatten_intersperse {sep : Bytes} {ws : List Bytes} {c : UInt8} (h : c ∈ (ws.intersperse sep).flatten) :
    c ∈ sep ∨ ∃ w ∈ ws, c ∈ w := by
  cases ws with
  | nil => simp at h
  | cons w ws =>
    rw [intersperse_append_map, List.mem_append, List.mem_flatMap] at h
    rcases h with h | ⟨u, hu, h⟩
    · exact Or.inr ⟨w, by simp, h⟩
    · rw [List.mem_append] at h
      rcases h with h | h
      · exact Or.inl h
      · exact Or.inr ⟨u, by simp [hu], h⟩

/-- The words of lines whose words have neither blanks nor newlines. -/
theorem shellWords_lines : ∀ (ls : List (List Bytes)), (∀ l ∈ ls, l ≠ [] ∧ ∀ w ∈ l, (32 : UInt8) ∉ w ∧ (10 : UInt8) ∉ w) →
    shellWords (ls.flatMap line) = ls := by
  intro ls
  induction ls with
  | nil => intro _; rfl
  | cons l ls ih =>
    intro h
    obtain ⟨h1, h2⟩ := h l (by simp)
    have ih := ih fun l hl => h l (by simp [hl])
    unfold shellWords at ih ⊢
    have e : (l :: ls).flatMap line = (l.intersperse [32]).flatten ++ 10 :: ls.flatMap line := by
      rw [List.flatMap_cons]
      unfold line
      simp
    have hn : (10 : UInt8) ∉ (l.intersperse [32]).flatten := by
      intro hm
      rcases mem_flatten_intersperse hm with hm | ⟨w, hw, hm⟩
      · revert hm; decide
      · exact (h2 w hw).2 hm
    rw [e, splitLines_cons _ _ hn, List.map_cons, ih, ← joinSp_intersperse, (dryrun_line_iff l h1).mpr fun w hw => (h2 w hw).1]

/-- Characters of names made from plain names. -/
def Clean (w : Bytes) : Prop := (32 : UInt8) ∉ w ∧ (10 : UInt8) ∉ w

theorem clean_append {a b : Bytes} : Clean (a ++ b) ↔ Clean a ∧ Clean b := by
  unfold Clean
  simp only [List.mem_append, not_or]
  tauto

theorem clean_digits {w : Bytes} (h : ∀ d ∈ w, isDigit d = true) : Clean w := by
  constructor <;> intro hm <;> have := h _ hm <;> revert this <;> decide

theorem clean_dashed {ps : List Bytes} (h : ∀ p ∈ ps, Clean p) : Clean (dashed ps) := by
  unfold dashed
  constructor
  · intro hm
    rcases mem_flatten_intersperse hm with hm | ⟨w, hw, hm⟩
    · revert hm; decide
    · exact (h w hw).1 hm
  · intro hm
    rcases mem_flatten_intersperse hm with hm | ⟨w, hw, hm⟩
    · revert hm; decide
    · exact (h w hw).2 hm

theorem clean_plain {n : Bytes} (h : Plain n) : Clean n := by
  constructor <;> intro hm <;> have := h.1 _ hm <;> revert this <;> decide

theorem clean_trim {n : Bytes} (h : Clean n) : Clean (trimStl n) := by
  by_cases hs : ∃ b, n = b ++ ascii ".stl"
  · obtain ⟨b, rfl⟩ := hs
    rw [(trimStl_spec b).1]
    exact (clean_append.mp h).1
  · rw [(trimStl_spec n).2 hs]
    exact h

theorem clean_fmtInt {i : Int} (h : 0 ≤ i) : Clean (fmtInt i) := by
  rw [fmtInt_nonneg h]
  exact clean_digits (fmtNat_digits _)

theorem clean_jobName {a : Bytes} {dim nx ny nz : Int} (h : Clean a) (h0 : 0 ≤ dim ∧ 0 ≤ nx ∧ 0 ≤ ny ∧ 0 ≤ nz) :
    Clean (jobName a dim nx ny nz) := by
  refine clean_dashed ?_
  intro p hp
  simp only [List.mem_cons, List.not_mem_nil, or_false] at hp
  rcases hp with rfl | rfl | rfl | rfl | rfl
  · exact h
  · exact clean_fmtInt h0.1
  · exact clean_fmtInt h0.2.1
  · exact clean_fmtInt h0.2.2.1
  · exact clean_fmtInt h0.2.2.2

theorem clean_tileName {P : Bytes} {t : Key} (h : Clean P) (ht : 0 ≤ t.X ∧ 0 ≤ t.Y ∧ 0 ≤ t.Z) : Clean (tileName P t) := by
  refine clean_dashed ?_
  intro p hp
  simp only [List.mem_cons, List.not_mem_nil, or_false] at hp
  rcases hp with rfl | rfl | rfl | rfl
  · exact h
  · exact clean_digits (padInt_digits 2 ht.1)
  · exact clean_digits (padInt_digits 2 ht.2.1)
  · exact clean_digits (padInt_digits 2 ht.2.2)

/-! ## The tile files of a fresh job -/

section
variable {F : Type} [GoFloat F] [FloatText F]

theorem tileContent_det {b : BinVOX F} {mesh : Mesh F} {o o' : BinVOX F} (h : VoxelizeRun b mesh (.ok o))
    (h' : VoxelizeRun b mesh (.ok o')) : tileContent o = tileContent o' := by
  obtain ⟨-, h2, h3⟩ := voxelize_deterministic b mesh o o' h h'
  unfold tileContent
  by_cases h0 : o.white.length = 0
  · rw [if_pos h0, if_pos (h3.mp h0)]
  · rw [if_neg h0, if_neg (fun h => h0 (h3.mpr h)), h2]

theorem jobPrefix_inj {a a' : Bytes} {dim nx ny nz : Int} (h : jobPrefix a dim nx ny nz = jobPrefix a' dim nx ny nz) :
    trimStl a = trimStl a' := by
  unfold jobPrefix at h
  simp only [List.append_assoc] at h
  exact List.append_cancel_right h

theorem diceArgs_fresh {load : Bytes → Option (Mesh F)} {bbox : Mesh F → Box F} {env : Bytes → Key → FileEnv}
    (henv : ∀ a t, GoodEnv (env a t)) {dim nx ny nz : Int} {B : Box F} {L : Layout F}
    (hL : layout B (boxScale B) dim nx ny nz = .ok L) (mesh : Bytes → Mesh F)
    {args : List Bytes} {fs fs' : FS} {mbb : Option (Box F)} {pf pf' : GoMap Bytes Unit} {r : Res (GoMap Bytes Unit)}
    (h : DiceArgs load bbox env dim nx ny nz args fs mbb pf fs' r) (hr : r = .ok pf') :
    (∀ a, args.head? = some a → mbb.getD (bbox (mesh a)) = B) → (args.map trimStl).Nodup →
    (∀ a ∈ args, (fs.get a).bind load = some (mesh a)) →
    (∀ a ∈ args, ∀ t ∈ tileIndices nx ny nz, fs.get (tileFile (jobPrefix a dim nx ny nz) t) = none) →
    (∀ a ∈ args, ∀ t ∈ tileIndices nx ny nz, ∀ vox, VoxelizeRun (tileModel L B t) (mesh a) (.ok vox) →
      fs'.get (tileFile (jobPrefix a dim nx ny nz) t) = tileContent vox) ∧
    ∀ n, (∀ a ∈ args, ∀ t ∈ tileIndices nx ny nz, n ≠ tileFile (jobPrefix a dim nx ny nz) t) → fs'.get n = fs.get n := by
  induction h with
  | nil => intro _ _ _ _; exact ⟨fun a ha => (List.not_mem_nil ha).elim, fun _ _ => rfl⟩
  | unreadable _ => cases hr
  | layoutFails _ _ => cases hr
  | layoutPanics _ _ => cases hr
  | writeFails _ _ _ => cases hr
  | @next arg args fs mbb pf mesh' L' fs1 pfxs fs2 r h hl hd hn ih =>
    intro hB hnd hload hfresh
    have hm : mesh' = mesh arg := by
      have := hload arg (by simp)
      rw [h] at this
      injection this
    subst hm
    rw [hB arg rfl] at hl hd hn ih
    rw [hL] at hl
    injection hl with hl
    subst hl
    have hd' := hd
    obtain ⟨vox, hvox, -⟩ := hd'
    obtain ⟨g1, g2, -⟩ := dice_fresh (mesh arg) B L nx ny nz (jobPrefix arg dim nx ny nz) (env arg) (henv arg) fs
      (hfresh arg (by simp)) _ hd vox hvox
    dsimp only at g1 g2
    have hother : ∀ a ∈ args, ∀ t ∈ tileIndices nx ny nz, ∀ u ∈ tileIndices nx ny nz,
        tileFile (jobPrefix a dim nx ny nz) t ≠ tileFile (jobPrefix arg dim nx ny nz) u := by
      intro a ha t ht u hu he
      have e := (tileFile_injective _ _ t u (mem_tileIndices_nonneg _ _ _ t ht) (mem_tileIndices_nonneg _ _ _ u hu) he).1
      rw [List.map_cons, List.nodup_cons] at hnd
      exact hnd.1 (List.mem_map.mpr ⟨a, ha, jobPrefix_inj e⟩)
    obtain ⟨i1, i2⟩ := ih hr (fun _ _ => rfl) (by rw [List.map_cons, List.nodup_cons] at hnd; exact hnd.2)
      (by
        intro a ha
        rw [g2 a ?_]
        · exact hload a (by simp [ha])
        · intro t ht e
          have h1 := hload a (by simp [ha])
          rw [e, hfresh arg (by simp) t ht] at h1
          cases h1)
      (by
        intro a ha t ht
        rw [g2 _ (hother a ha t ht)]
        exact hfresh a (by simp [ha]) t ht)
    constructor
    · intro a ha t ht v hv
      rcases List.mem_cons.mp ha with rfl | ha
      · by_cases hin : ∃ a' ∈ args, ∃ u ∈ tileIndices nx ny nz, tileFile (jobPrefix a dim nx ny nz) t = tileFile (jobPrefix a' dim nx ny nz) u
        · obtain ⟨a', ha', u, hu, e⟩ := hin
          exact absurd e.symm (hother a' ha' u hu t ht)
        · rw [i2 _ (fun a' ha' u hu e => hin ⟨a', ha', u, hu, e⟩), g1 t ht]
          exact tileContent_det (hvox t) hv
      · exact i1 a ha t ht v hv
    · intro n hn
      rw [i2 n (fun a ha => hn a (by simp [ha])), g2 n (hn arg (by simp))]

/-! ## What voxcut reads from the tile files -/

/-- A model in the place of tile `t`. -/
structure InPlace (L : Layout F) (B : Box F) (t : Key) (b : BinVOX F) : Prop where
  nx : b.NX = L.dimX
  ny : b.NY = L.dimY
  nz : b.NZ = L.dimZ
  tx : b.TX = (tileModel L B t).TX
  ty : b.TY = (tileModel L B t).TY
  tz : b.TZ = (tileModel L B t).TZ
  scale : b.Scale = L.subScale
  white : WhiteOnly b

/-- Reading a tile's file gives the voxels `W` (a missing file being none). -/
def ReadsAs (L : Layout F) (B : Box F) (t : Key) (r : Option (BinVOX F)) (W : Key → Prop) : Prop :=
  (r = none ∧ ∀ l, ¬ W l) ∨ ∃ b, r = some b ∧ InPlace L B t b ∧ ∀ l, Vox b l ↔ W l

theorem tile_reads_any [LawfulFloatText F] {L : Layout F} {B : Box F}
    (px : 0 < L.dimX ∧ L.dimX ≤ maxInt) (py : 0 < L.dimY ∧ L.dimY ≤ maxInt) (pz : 0 < L.dimZ ∧ L.dimZ ≤ maxInt)
    {mesh : Mesh F} {t : Key} {vox : BinVOX F} (hvox : VoxelizeRun (tileModel L B t) mesh (.ok vox)) {W : Key → Prop}
    (hsame : ∀ l, InDims L.dimX L.dimY L.dimZ l → (Vox vox l ↔ W l)) :
    ReadsAs L B t (BinVOX.Read ((tileContent vox).map fun b => ⟨b, true⟩) wholeRegion) (fun l => InDims L.dimX L.dimY L.dimZ l ∧ W l) := by
  have nz' : ¬ zeroDim (tileModel L B t) := by
    unfold zeroDim
    show ¬ (L.dimX = 0 ∨ L.dimY = 0 ∨ L.dimZ = 0)
    omega
  obtain ⟨c, hc, hb, _, _⟩ := voxelize_exact _ mesh nz' _ hvox
  injection hc with hc
  subst hc
  unfold tileContent
  by_cases h0 : vox.white.length = 0
  · rw [if_pos h0]
    refine Or.inl ⟨rfl, ?_⟩
    rintro l ⟨hl, hv⟩
    have hk := (hsame l hl).mpr hv
    rw [Vox, List.length_eq_zero_iff.mp h0] at hk
    cases hk
  · rw [if_neg h0]
    have hr := write_region_read vox (fun h => h0 (by rw [h]; rfl)) wholeRegion
    have e : writeRegion vox.NX vox.NY vox.NZ wholeRegion = ⟨0, 0, 0, L.dimX, L.dimY, L.dimZ⟩ := by
      rw [hb]; rfl
    dsimp only at hr
    rw [e] at hr
    obtain ⟨b', hrd, h1, h2, h3, h4, h5, h6, h7, h8, _, hv⟩ := hr ⟨le_of_lt px.1, px.2⟩ ⟨le_of_lt py.1, py.2⟩ ⟨le_of_lt pz.1, pz.2⟩
    refine Or.inr ⟨b', hrd, ⟨h1, h2, h3, ?_, ?_, ?_, ?_, ?_⟩, ?_⟩
    · rw [h4, hb]
    · rw [h5, hb]
    · rw [h6, hb]
    · rw [h7, hb]; rfl
    · show mapOf b'.ColorVoxels = []
      rw [h8]; rfl
    · intro l
      rw [hv]
      have es : l.shift 0 0 0 = l := by
        obtain ⟨X, Y, Z⟩ := l
        simp [Key.shift]
      show InDims L.dimX L.dimY L.dimZ l ∧ Vox vox (l.shift 0 0 0) ↔ _
      rw [es]
      exact and_congr_right fun hl => hsame l hl

/-- Cutting the tile files, present or not: voxcut ends with an error only if nothing is left, otherwise
    it has exactly what is left. -/
theorem cut_reads (hF : WhiteCancels F) {L : Layout F} {B : Box F} {t : Key} {d : Disk} {o : Bytes} (ho : o ≠ []) (name : Bytes → Bytes)
    {base : Bytes} {cuts : List Bytes} {W : Bytes → Key → Prop}
    (hb : ReadsAs L B t (BinVOX.Read (input d (name base)) wholeRegion) (W base))
    (hc : ∀ c ∈ cuts, ReadsAs L B t (BinVOX.Read (input d (name c)) wholeRegion) (W c)) :
    ReadsAs L B t (cutModel d (stlFlags o ((base :: cuts).map name))) (fun l => W base l ∧ ∀ c ∈ cuts, ¬ W c l) := by
  have hcm : cutModel (F := F) d (stlFlags o ((base :: cuts).map name)) = match BinVOX.Read (input d (name base)) wholeRegion with
      | none => none
      | some b => voxcutLoop b (cuts.map fun f => BinVOX.Read (F := F) (input d (name f)) wholeRegion) := by
    unfold cutModel stlFlags
    rw [List.map_cons]
    dsimp only
    rw [List.map_map]
    rw [if_neg (by simp [ho]), show (⟨0, 0, 0, 0, 0, 0⟩ : Region) = wholeRegion from rfl]
    cases BinVOX.Read (F := F) (input d (name base)) wholeRegion <;> rfl
  rw [hcm]
  rcases hb with ⟨h1, h2⟩ | ⟨b, h1, hp, hv⟩
  · rw [h1]
    exact Or.inl ⟨rfl, fun l h => h2 l h.1⟩
  · rw [h1]
    dsimp only
    have hiff : ∀ l, (∀ c, some c ∈ cuts.map (fun f => BinVOX.Read (F := F) (input d (name f)) wholeRegion) → ¬ Vox c l) ↔
        ∀ c ∈ cuts, ¬ W c l := by
      intro l
      constructor
      · intro h c hcm hw
        rcases hc c hcm with ⟨_, h2⟩ | ⟨b', e, _, hv'⟩
        · exact h2 l hw
        · exact h b' (List.mem_map.mpr ⟨c, hcm, e⟩) ((hv' l).mpr hw)
      · intro h b' hm hvb
        obtain ⟨c, hcm, e⟩ := List.mem_map.mp hm
        rcases hc c hcm with ⟨h2, _⟩ | ⟨b2, e2, _, hv'⟩
        · rw [h2] at e; cases e
        · rw [e2] at e
          injection e with e
          subst e
          exact h c hcm ((hv' l).mp hvb)
    obtain ⟨g1, g2⟩ := voxcutLoop_exact hF (cuts.map fun f => BinVOX.Read (F := F) (input d (name f)) wholeRegion) b hp.white (by
      intro c hm
      obtain ⟨f, hf, e⟩ := List.mem_map.mp hm
      rcases hc f hf with ⟨h2, _⟩ | ⟨b2, e2, hp2, _⟩
      · rw [h2] at e; cases e
      · rw [e2] at e
        injection e with e
        subst e
        exact hp2.white)
    cases hl : voxcutLoop b (cuts.map fun f => BinVOX.Read (F := F) (input d (name f)) wholeRegion) with
    | none =>
      refine Or.inl ⟨rfl, ?_⟩
      rintro l ⟨hw, hcw⟩
      obtain ⟨b2, hb2⟩ := g1.mpr (Or.inr ⟨l, (hv l).mpr hw, (hiff l).mpr hcw⟩)
      rw [hl] at hb2
      cases hb2
    | some b2 =>
      obtain ⟨⟨e1, e2, e3, e4, e5, e6, e7, e8⟩, hvox⟩ := g2 b2 hl
      refine Or.inr ⟨b2, rfl, ⟨e1.trans hp.nx, e2.trans hp.ny, e3.trans hp.nz, e4.trans hp.tx, e5.trans hp.ty, e6.trans hp.tz,
        e7.trans hp.scale, e8⟩, ?_⟩
      intro l
      rw [hvox, hv, hiff]

/-! ## The voxcut lines -/

/-- A line of the script that runs voxcut, all of whose files can be written. -/
theorem goodLine_voxcut {lib : GL F} {load : Bytes → Option (List (Tri (Vec F)))} {workers : Nat} {d d' : Disk}
    {o : Bytes} {files : List Bytes} (ho : o ≠ [])
    (h : GoodLine lib load workers d (ascii "voxcut" :: ascii "-ostl" :: o :: files) d') :
    (cutModel (F := F) d (stlFlags o files) = none ∧ d' = d) ∨
    ∃ b tris, cutModel (F := F) d (stlFlags o files) = some b ∧ ToMeshRun lib b tris ∧ d' = put d o (lib.stl tris) := by
  obtain ⟨e, h, hf⟩ := h
  generalize hw : ascii "voxcut" :: ascii "-ostl" :: o :: files = ws at h
  cases h with
  | comment h =>
    injection hw with hw _
    rw [← hw] at h
    exact absurd h (by decide)
  | merge hg h =>
    injection hw with hw _
    exact absurd hw (by decide)
  | @voxcut o' files' d' e h =>
    injection hw with _ hw
    injection hw with _ hw
    injection hw with h1 h2
    subst h1 h2
    have hf' : e = .fatal → cutModel (F := F) d (stlFlags o files) = none := by
      intro he
      obtain ⟨o', files', e1, e2⟩ := hf he
      injection e1 with _ e1
      injection e1 with _ e1
      injection e1 with e1 e3
      rw [e1, e3]
      exact e2
    cases h with
    | fatal h => exact Or.inl ⟨h, rfl⟩
    | binvoxFails h h1 => rw [hf' rfl] at h; cases h
    | voxFails h _ _ h2 => rw [hf' rfl] at h; cases h
    | @last b env m env2 _ ok h h1 hm h2 h3 =>
      refine Or.inr ?_
      cases ok with
      | false => rw [hf' rfl] at h; cases h
      | true =>
        have e1 : (outVox (stlFlags o files) m env2 (outBinvox (stlFlags o files) b env d).1).1 = d := by
          unfold outVox outBinvox stlFlags
          simp
        rw [e1] at h3
        cases h3 with
        | none h => exact absurd h ho
        | manifold _ hm _ _ => cases hm
        | cubes _ _ ht hs => exact ⟨b, _, h, ht, save_ok hs⟩

/-! ## Names that differ -/

theorem tileBin_spec (fl : DiceFlags F) (a : Bytes) (t : Key) :
    tileBin fl a t = tileFile (jobPrefix a fl.dim fl.nx fl.ny fl.nz) t := by
  rw [tileFile_spec, jobPrefix_spec]
  rfl

theorem tileStl_ne_bin (P Q : Bytes) : P ++ ascii ".stl" ≠ Q ++ ascii ".binvox" := by
  intro h
  have h2 := congrArg List.getLast? h
  have e1 : (ascii ".stl").getLast? = some 108 := by decide
  have e2 : (ascii ".binvox").getLast? = some 120 := by decide
  rw [List.getLast?_append, List.getLast?_append, e1, e2, Option.some_or, Option.some_or] at h2
  exact absurd h2 (by decide)

theorem tileStl_inj (fl : DiceFlags F) {t u : Key} (ht : 0 ≤ t.X ∧ 0 ≤ t.Y ∧ 0 ≤ t.Z) (hu : 0 ≤ u.X ∧ 0 ≤ u.Y ∧ 0 ≤ u.Z)
    (h : tileStl fl t = tileStl fl u) : t = u := by
  unfold tileStl at h
  rw [tileName_suffix, tileName_suffix, List.append_assoc, List.append_assoc] at h
  exact tileSuffix_injective t u ht hu (List.append_cancel_right (List.append_cancel_left h))

theorem tileStl_ne_out (fl : DiceFlags F) (t : Key) : tileStl fl t ≠ outName fl ++ ascii ".stl" := by
  unfold tileStl
  rw [tileName_suffix]
  intro h
  have := congrArg List.length h
  unfold tileSuffix at this
  simp only [List.length_append, ascii_dash, List.length_cons, List.length_nil] at this
  omega

theorem tileStl_ne_nil (fl : DiceFlags F) (t : Key) : tileStl fl t ≠ [] := by
  unfold tileStl
  intro h
  have := congrArg List.length h
  simp only [List.length_append, List.length_nil] at this
  have h4 : (ascii ".stl").length = 4 := by decide
  omega

theorem suffix_no_slash {t : Key} (ht : 0 ≤ t.X ∧ 0 ≤ t.Y ∧ 0 ≤ t.Z) : (47 : UInt8) ∉ tileSuffix t := by
  have dig : ∀ {w : Bytes}, (∀ d ∈ w, isDigit d = true) → (47 : UInt8) ∉ w := by
    intro w h hm
    have := h _ hm
    revert this
    decide
  unfold tileSuffix
  rw [ascii_dash]
  simp only [List.mem_append, List.mem_singleton, not_or]
  exact ⟨⟨⟨⟨⟨by decide, dig (padInt_digits 2 ht.1)⟩, by decide⟩, dig (padInt_digits 2 ht.2.1)⟩, by decide⟩, dig (padInt_digits 2 ht.2.2)⟩

/-! ## Running the lines -/

theorem scriptRun_append {step : Disk → List Bytes → Disk → Prop} {l₁ l₂ : List (List Bytes)} : ∀ {d d'' : Disk},
    ScriptRun step d (l₁ ++ l₂) d'' → ∃ d', ScriptRun step d l₁ d' ∧ ScriptRun step d' l₂ d'' := by
  induction l₁ with
  | nil => intro d d'' h; exact ⟨d, .nil, h⟩
  | cons w l₁ ih =>
    intro d d'' h
    cases h with
    | cons h hr =>
      obtain ⟨d', h1, h2⟩ := ih hr
      exact ⟨d', .cons h h1, h2⟩

/-- The voxcut line of a tile. -/
def cutLine (fl : DiceFlags F) (t : Key) : List Bytes :=
  [ascii "voxcut", ascii "-ostl", tileStl fl t] ++ fl.args.map fun a => tileBin fl a t

/-- The STL file of a tile after the script. -/
def TileResult (lib : GL F) (L : Layout F) (B : Box F) (t : Key) (W : Key → Prop) (r : Option Bytes) : Prop :=
  (r = none ∧ ∀ l, ¬ W l) ∨
  ∃ b tris, r = some (lib.stl tris) ∧ InPlace L B t b ∧ (∀ l, Vox b l ↔ W l) ∧ ToMeshRun lib b tris

theorem script_tiles (hF : WhiteCancels F) {lib : GL F} {load : Bytes → Option (List (Tri (Vec F)))} {workers : Nat} {fl : DiceFlags F}
    {base : Bytes} {cuts : List Bytes} (hargs : fl.args = base :: cuts) {L : Layout F} {B : Box F} {W : Bytes → Key → Key → Prop}
    (ts : List Key) : ∀ {d d' : Disk}, ts.Nodup → (∀ t ∈ ts, 0 ≤ t.X ∧ 0 ≤ t.Y ∧ 0 ≤ t.Z) → (∀ t ∈ ts, d (tileStl fl t) = none) →
    (∀ t ∈ ts, ∀ a ∈ fl.args, ReadsAs L B t (BinVOX.Read (input d (tileBin fl a t)) wholeRegion) (W a t)) →
    ScriptRun (GoodLine lib load workers) d (ts.map (cutLine fl)) d' →
    (∀ t ∈ ts, TileResult lib L B t (fun l => W base t l ∧ ∀ c ∈ cuts, ¬ W c t l) (d' (tileStl fl t))) ∧
    ∀ n, (∀ t ∈ ts, n ≠ tileStl fl t) → d' n = d n := by
  induction ts with
  | nil =>
    intro d d' _ _ _ _ h
    cases h
    exact ⟨fun t ht => (List.not_mem_nil ht).elim, fun _ _ => rfl⟩
  | cons t ts ih =>
    intro d d'' hnd hnn hnone hreads h
    rw [List.nodup_cons] at hnd
    have hne : ∀ u ∈ ts, tileStl fl u ≠ tileStl fl t := by
      intro u hu e
      have := tileStl_inj fl (hnn u (by simp [hu])) (hnn t (by simp)) e
      exact hnd.1 (this ▸ hu)
    cases h with
    | @cons _ _ d' _ _ hl hr =>
      have hcut := cut_reads hF (o := tileStl fl t) (tileStl_ne_nil fl t) (fun a => tileBin fl a t) (base := base) (cuts := cuts) (d := d)
        (L := L) (B := B) (t := t) (W := fun a => W a t) (hreads t (by simp) base (by rw [hargs]; simp))
        (fun c hc => hreads t (by simp) c (by rw [hargs]; simp [hc]))
      rw [← hargs] at hcut
      -- the disk after this line
      have hstep : (∀ n, n ≠ tileStl fl t → d' n = d n) ∧
          TileResult lib L B t (fun l => W base t l ∧ ∀ c ∈ cuts, ¬ W c t l) (d' (tileStl fl t)) := by
        have hl : GoodLine lib load workers d (ascii "voxcut" :: ascii "-ostl" :: tileStl fl t :: fl.args.map fun a => tileBin fl a t)
          d' := hl
        rcases goodLine_voxcut (tileStl_ne_nil fl t) hl with ⟨h1, rfl⟩ | ⟨b, tris, h1, h2, rfl⟩
        · refine ⟨fun _ _ => rfl, Or.inl ⟨hnone t (by simp), ?_⟩⟩
          rcases hcut with ⟨_, h⟩ | ⟨b, e, _⟩
          · exact h
          · rw [h1] at e; cases e
        · refine ⟨fun n hn => put_other _ _ hn, Or.inr ⟨b, tris, put_self _ _ _, ?_⟩⟩
          rcases hcut with ⟨e, _⟩ | ⟨b', e, hp, hv⟩
          · rw [h1] at e; cases e
          · rw [h1] at e
            injection e with e
            subst e
            exact ⟨hp, hv, h2⟩
      obtain ⟨hother, hres⟩ := hstep
      obtain ⟨i1, i2⟩ := ih hnd.2 (fun u hu => hnn u (by simp [hu]))
        (fun u hu => by rw [hother _ (hne u hu)]; exact hnone u (by simp [hu]))
        (fun u hu a ha => by
          have e : input d' (tileBin fl a u) = input d (tileBin fl a u) := by
            unfold input
            rw [hother]
            exact fun h => tileStl_ne_bin _ _ h.symm
          rw [e]
          exact hreads u (by simp [hu]) a ha) hr
      refine ⟨?_, ?_⟩
      · intro u hu
        rcases List.mem_cons.mp hu with rfl | hu
        · rw [i2 _ (fun v hv => (hne v hv).symm)]
          exact hres
        · exact i1 u hu
      · intro n hn
        rw [i2 n (fun u hu => hn u (by simp [hu])), hother n (hn t (by simp))]

/-! ## The merge line -/

/-- A reordering of the images is the images of a reordering. -/
theorem perm_map_exists {α β : Type} (f : α → β) : ∀ (r : List α) (l : List β), l.Perm (r.map f) →
    ∃ l' : List α, l'.Perm r ∧ l'.map f = l := by
  intro r
  induction r with
  | nil => intro l h; exact ⟨[], List.Perm.refl _, h.eq_nil.symm⟩
  | cons a r ih =>
    intro l h
    obtain ⟨l₁, l₂, rfl⟩ := List.append_of_mem (h.mem_iff.mpr (by simp : f a ∈ (a :: r).map f))
    have h2 : (l₁ ++ l₂).Perm (r.map f) := (List.perm_cons (f a)).mp (List.perm_middle.symm.trans h)
    obtain ⟨l', hp, he⟩ := ih _ h2
    obtain ⟨x, y, rfl, rfl, rfl⟩ := List.map_eq_append_iff.mp he
    exact ⟨x ++ a :: y, List.perm_middle.trans (List.Perm.cons a hp), by simp⟩

/-- The merge line, all of whose files can be written. -/
theorem goodLine_merge {lib : GL F} {load : Bytes → Option (List (Tri (Vec F)))} {workers : Nat} {d d' : Disk} {p : Bytes}
    (h : GoodLine lib load workers d [ascii "merge-stl", ascii "-f", ascii "-prefix", p] d') :
    ∃ names e, Glob d p (ascii ".stl") names ∧ MergeStlRun (fun n => (d n).bind load) lib d p true workers names d' e ∧ e ≠ .fatal := by
  obtain ⟨e, h, hf⟩ := h
  have hne : e ≠ .fatal := by
    intro he
    obtain ⟨o, files, e1, -⟩ := hf he
    injection e1 with e1 _
    exact absurd e1 (by decide)
  generalize hw : [ascii "merge-stl", ascii "-f", ascii "-prefix", p] = ws at h
  cases h with
  | comment h =>
    injection hw with hw _
    rw [← hw] at h
    exact absurd h (by decide)
  | voxcut h =>
    injection hw with hw _
    exact absurd hw (by decide)
  | merge hg h =>
    injection hw with _ hw
    injection hw with _ hw
    injection hw with _ hw
    injection hw with hw _
    subst hw
    exact ⟨_, e, hg, h, hne⟩

/-- A merge that is not fatal over files that can all be loaded. -/
theorem merge_not_fatal {load : Bytes → Option (List (Tri (Vec F)))} {lib : GL F} {d d' : Disk} {p : Bytes} {workers : Nat}
    {names : List Bytes} {e : Exit} (h : MergeStlRun load lib d p true workers names d' e) (he : e ≠ .fatal)
    (hn : p ++ ascii ".stl" ∉ names) (hall : ∀ f ∈ names, (load f).isSome) :
    (names = [] ∧ d' = put d (p ++ ascii ".stl") []) ∨
    (names ≠ [] ∧ ∃ order, order.Perm names ∧ d' = put d (p ++ ascii ".stl") (lib.stl (allTriangles load order))) := by
  have hfil : names.filter (fun f => f ≠ p ++ ascii ".stl") = names := by
    rw [List.filter_eq_self]
    intro f hf
    simp only [ne_eq, decide_not, Bool.not_eq_eq_eq_not, Bool.not_true, decide_eq_false_iff_not]
    rintro rfl
    exact hn hf
  have key : ∀ {files s r}, mergeInputs (p ++ ascii ".stl") true names = some files → PoolReach load workers (Pool.init files) s →
      s.returned = some r → ∃ order, order.Perm names ∧ r = some (if names = [] then none else some (allTriangles load order)) := by
    intro files s r hm hr hret
    have e1 := (mergeInputs_exact _ _ _).2 _ hm
    rw [hfil] at e1
    rw [e1] at hr
    exact (merge_result names s hr r hret).1 hall
  cases h with
  | refused h => exact absurd rfl he
  | failed h hr hret => exact absurd rfl he
  | nilNotCreated h hr hret => exact absurd rfl he
  | nilMesh h hr hret =>
    obtain ⟨order, -, e1⟩ := key h hr hret
    by_cases h0 : names = []
    · exact Or.inl ⟨h0, rfl⟩
    · rw [if_neg h0] at e1; cases e1
  | @saved files s tris d' ok h hr hret hs =>
    obtain ⟨order, ho, e1⟩ := key h hr hret
    by_cases h0 : names = []
    · rw [if_pos h0] at e1; cases e1
    · rw [if_neg h0] at e1
      injection e1 with e1
      injection e1 with e1
      cases ok with
      | false => exact absurd rfl he
      | true => exact Or.inr ⟨h0, order, ho, by rw [save_ok hs, e1]⟩

end

theorem tile_reads [FloatText ℚ] [LawfulFloatText ℚ] {B : Box ℚ} {scale : ℚ} {dim nx ny nz : Int} {L : Layout ℚ}
    (h : layout B scale dim nx ny nz = .ok L) (hs : 0 < scale) (hd : 0 < dim)
    (px : 0 < L.dimX ∧ L.dimX ≤ maxInt) (py : 0 < L.dimY ∧ L.dimY ≤ maxInt) (pz : 0 < L.dimZ ∧ L.dimZ ≤ maxInt) (hnx : 0 < nx)
    {mesh : Mesh ℚ} {whole : BinVOX ℚ} (hw : VoxelizeRun (wholeModel L B nx ny nz) mesh (.ok whole))
    {t : Key} (ht : t ∈ tileIndices nx ny nz) {vox : BinVOX ℚ} (hvox : VoxelizeRun (tileModel L B t) mesh (.ok vox)) :
    ReadsAs L B t (BinVOX.Read ((tileContent vox).map fun b => ⟨b, true⟩) wholeRegion)
      (fun l => InDims L.dimX L.dimY L.dimZ l ∧ Vox whole (inWhole L t l)) := by
  exact tile_reads_any px py pz hvox
    (fun l hl => dice_same_voxels B scale dim nx ny nz L h hs hd px.1 py.1 pz.1 hnx mesh whole hw t ht vox hvox l hl)

end Cmd
end StlDice
