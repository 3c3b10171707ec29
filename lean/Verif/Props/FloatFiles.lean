import Verif.Props.FloatText
import Verif.Props.BinVoxFile
import Verif.Props.DiceFiles
import Verif.Props.DiceFloat
import Verif.Props.MbbText
import Verif.Props.Voxcut

/-!
# C89: files with float64 numbers
-/

namespace StlDice

open GoFloat F64 Spec BinVOX

/-- **C89.** A binvox file written with float64 numbers in Go's text form is read back with exactly the same numbers and
    voxels. -/
theorem binvox_roundtrip_f64 (b : BinVOX F64) (hne : b.white ≠ [])
    (hx : 0 ≤ b.NX ∧ b.NX ≤ maxInt) (hy : 0 ≤ b.NY ∧ b.NY ≤ maxInt) (hz : 0 ≤ b.NZ ∧ b.NZ ≤ maxInt)
    (env : FileEnv) (hc : env.createOk = true) (hp : ∀ o ∈ env.plan, o = WOut.full) (hcl : env.closeOk = true) :
    ∃ file b', b.Write env wholeRegion = (some file, true) ∧
      BinVOX.Read (some ⟨file, true⟩) wholeRegion = some b' ∧
      b'.NX = b.NX ∧ b'.NY = b.NY ∧ b'.NZ = b.NZ ∧ b'.TX = b.TX ∧ b'.TY = b.TY ∧ b'.TZ = b.TZ ∧
      b'.Scale = b.Scale ∧ ∀ k, Vox b' k ↔ Vox b k ∧ InDims b.NX b.NY b.NZ k :=
  write_read_roundtrip b hne hx hy hz env hc hp hcl

theorem f64_plain (x : F64) : PlainWord (FloatText.fmtG x) := by
  obtain ⟨v, hv, -⟩ := fmtFloat_decimal x
  obtain ⟨h1, h2⟩ := decimal_chars hv
  refine ⟨h1, fun c hc => ⟨decChar_space (h2 c hc), ?_⟩⟩
  have := h2 c hc
  refine ⟨?_, ?_, ?_, ?_, ?_⟩ <;> (rintro rfl; unfold decChar at this; revert this; decide)

/-- **C89.** The box stldice prints in its log is read back from `-mbb` with exactly the same float64 numbers. -/
theorem mbb_f64 (b : BinVOX.Box F64) : parseMBB (mbbText FloatText.fmtG b) = some b :=
  parseMBB_logged _ f64_plain LawfulFloatText.parse_fmt b

/-- **C89.** White minus white is nothing in float64, so what is proved of voxcut and voxcut-dice (C25–C27, C38, C60, C73, C79)
    for lawful text holds for float64 and Go's text. -/
theorem whiteCancels_f64 : WhiteCancels F64 := by
  unfold WhiteCancels
  decide +kernel

/-- What can be read from the files of a diced job: exactly the voxels of the voxelized tiles. -/
theorem dice_file_voxels {F : Type} [GoFloat F] [FloatText F] [LawfulFloatText F] {mbb : Box F} {nx ny nz : Int} {L : Layout F}
    (px : 0 < L.dimX ∧ L.dimX ≤ maxInt) (py : 0 < L.dimY ∧ L.dimY ≤ maxInt) (pz : 0 < L.dimZ ∧ L.dimZ ≤ maxInt)
    {mesh : Mesh F} {P : Bytes} {env : Key → FileEnv} (henv : ∀ t, GoodEnv (env t)) {fs : FS}
    (hfs : ∀ t ∈ tileIndices nx ny nz, fs.get (tileFile P t) = none)
    {out : FS × Option (List Bytes)} (hrun : DiceRun mesh mbb L nx ny nz P env fs out)
    {t : Key} (ht : t ∈ tileIndices nx ny nz) {l : Key} (hl : InDims L.dimX L.dimY L.dimZ l) :
    ∃ tile, VoxelizeRun (tileModel L mbb t) mesh (.ok tile) ∧
      ((∃ (file : Bytes) (b' : BinVOX F), out.1.get (tileFile P t) = some file ∧
        BinVOX.Read (some ⟨file, true⟩) wholeRegion = some b' ∧ Vox b' l) ↔ tile.white.has l = true) := by
  have hrun' := hrun
  obtain ⟨vox, hvox, _⟩ := hrun
  refine ⟨vox t, hvox t, ?_⟩
  have hf := (dice_fresh mesh mbb L nx ny nz P env henv fs hfs out hrun' vox hvox).1 t ht
  have nz' : ¬ zeroDim (tileModel L mbb t) := by
    unfold zeroDim
    show ¬ (L.dimX = 0 ∨ L.dimY = 0 ∨ L.dimZ = 0)
    omega
  obtain ⟨c, hc, hb, _, _⟩ := voxelize_exact _ mesh nz' _ (hvox t)
  injection hc with hc; subst hc
  have hdim : (vox t).NX = L.dimX ∧ (vox t).NY = L.dimY ∧ (vox t).NZ = L.dimZ := by
    rw [hb]; exact ⟨rfl, rfl, rfl⟩
  rw [hf]
  unfold tileContent
  by_cases h0 : (vox t).white.length = 0
  · rw [if_pos h0]
    constructor
    · rintro ⟨_, _, h, _⟩; cases h
    · intro hk
      have : (vox t).white = [] := List.length_eq_zero_iff.mp h0
      rw [this] at hk; cases hk
  · rw [if_neg h0]
    have hr := write_region_read (vox t) (fun h => h0 (by rw [h]; rfl)) wholeRegion
    have e : writeRegion (vox t).NX (vox t).NY (vox t).NZ wholeRegion =
        ⟨0, 0, 0, L.dimX, L.dimY, L.dimZ⟩ := by
      rw [hdim.1, hdim.2.1, hdim.2.2]; rfl
    dsimp only at hr
    rw [e] at hr
    obtain ⟨b', hrd, _, _, _, _, _, _, _, _, _, hv⟩ := hr ⟨le_of_lt px.1, px.2⟩ ⟨le_of_lt py.1, py.2⟩ ⟨le_of_lt pz.1, pz.2⟩
    have hv' : Vox b' l ↔ (vox t).white.has l = true := by
      rw [hv]
      have es : l.shift 0 0 0 = l := by
        obtain ⟨X, Y, Z⟩ := l
        simp [Key.shift]
      show InDims L.dimX L.dimY L.dimZ l ∧ Vox (vox t) (l.shift 0 0 0) ↔ _
      rw [es]
      exact ⟨fun h => h.2, fun h => ⟨hl, h⟩⟩
    constructor
    · rintro ⟨file, b2, e1, e2, e3⟩
      injection e1 with e1
      rw [← e1] at e2
      have : some b2 = some b' := e2.symm.trans hrd
      injection this with this
      rw [this] at e3
      exact hv'.mp e3
    · intro hk
      exact ⟨_, b', rfl, hrd, hv'.mpr hk⟩

/-- **C89.** In float64 and Go's text form: for a mesh in general position, voxel `l` of tile `t` can be read back from the
    tile's file of a diced job (a missing file being an empty tile) iff the undiced job has the corresponding voxel. -/
theorem dice_f64_end_to_end {mbb : Box F64} {scale : F64} {dim nx ny nz : Int} {L L1 : Layout F64} {R : ℚ} {mesh : Mesh F64}
    (h : layout mbb scale dim nx ny nz = .ok L) (h1 : layout mbb scale dim 1 1 1 = .ok L1)
    (hnx : 0 < nx) (hny : 0 < ny) (hnz : 0 < nz) (hs0 : 0 < scale.val) (hd0 : 0 < dim) (hdim : dim ≤ 2 ^ 53)
    (mx : 0 < L1.dimX ∧ L1.dimX ≤ 2 ^ 50) (my : 0 < L1.dimY ∧ L1.dimY ≤ 2 ^ 50) (mz : 0 < L1.dimZ ∧ L1.dimZ ≤ 2 ^ 50)
    (hx : |mbb.Min.X.val| + (L1.dimX : ℚ) / (dim / scale.val) ≤ R)
    (hy : |mbb.Min.Y.val| + (L1.dimY : ℚ) / (dim / scale.val) ≤ R)
    (hz : |mbb.Min.Z.val| + (L1.dimZ : ℚ) / (dim / scale.val) ≤ R)
    (hg : GeneralPosition R (gridPart mbb scale dim ⟨L1.dimX, L1.dimY, L1.dimZ⟩ ⟨0, 0, 0⟩) (exactMesh mesh))
    {whole : BinVOX F64} (hw : VoxelizeRun (tileModel L1 mbb ⟨0, 0, 0⟩) mesh (.ok whole))
    (px : 0 < L.dimX ∧ L.dimX ≤ maxInt) (py : 0 < L.dimY ∧ L.dimY ≤ maxInt) (pz : 0 < L.dimZ ∧ L.dimZ ≤ maxInt)
    {P : Bytes} {env : Key → FileEnv} (henv : ∀ t, GoodEnv (env t)) {fs : FS}
    (hfs : ∀ t ∈ tileIndices nx ny nz, fs.get (tileFile P t) = none)
    {out : FS × Option (List Bytes)} (hrun : DiceRun mesh mbb L nx ny nz P env fs out)
    {t : Key} (ht : t ∈ tileIndices nx ny nz) {l : Key} (hl : InDims L.dimX L.dimY L.dimZ l) :
    (∃ (file : Bytes) (b' : BinVOX F64), out.1.get (tileFile P t) = some file ∧
        BinVOX.Read (some ⟨file, true⟩) wholeRegion = some b' ∧ Vox b' l) ↔
      Vox whole (l.shift (t.X * L.dimX) (t.Y * L.dimY) (t.Z * L.dimZ)) := by
  obtain ⟨tile, htile, hiff⟩ := dice_file_voxels px py pz henv hfs hrun ht hl
  rw [hiff]
  exact dice_f64_same_voxels h h1 hnx hny hnz hs0 hd0 hdim mx my mz hx hy hz hg hw ht htile hl

/-! ## Concrete cases -/

example : headerBytes binvoxMagic 7 8 9 (of (1 / 10)) (of (-1 / 3)) (of (10 ^ 6)) (of (22 / 10 ^ 6)) =
    ascii "#binvox 1\ndim 7 8 9\ntranslate 0.1 -0.3333333333333333 1e+06\nscale 2.2e-05\ndata\n" := by decide +kernel

/-- The smallest positive float64 needs a single digit. -/
example : fmtFloat (of (5 / 10 ^ 324)) = ascii "5e-324" ∧ (of (5 / 10 ^ 324)).val = 1 / 2 ^ 1074 := by decide +kernel

/-- Some numbers need 17 digits. -/
example : fmtFloat (of ((17 / 10 : ℚ) - 2 / 10 ^ 16)) = ascii "1.6999999999999997" := by decide +kernel

/-- Different decimals, the same number. -/
example : parse (ascii "+.1e0") = some (of (1 / 10)) ∧ parse (ascii "100E-3") = some (of (1 / 10)) ∧
    parse (ascii "0.1000000000000000000001") = some (of (1 / 10)) ∧ parse (ascii "0.1e") = none ∧ parse (ascii ".") = none := by
  decide +kernel

/-- A model written and read. -/
example := binvox_roundtrip_f64 ⟨3, 2, 1, of (1 / 10), of (-1 / 3), of 0, of 3, some [(⟨2, 1, 0⟩, ())], none⟩ (by decide) ⟨by decide, by decide⟩ ⟨by decide, by decide⟩
  ⟨by decide, by decide⟩ ⟨true, [], true⟩ rfl (fun _ h => (List.not_mem_nil h).elim) rfl

/-- The tetrahedron of Props/DiceFloat in eight tile files. -/
example : ∃ (L L1 : Layout F64) (whole : BinVOX F64) (out : FS × Option (List Bytes)),
    layout unitBox (ofInt 1) 4 2 2 2 = .ok L ∧ layout unitBox (ofInt 1) 4 1 1 1 = .ok L1 ∧
    VoxelizeRun (tileModel L1 unitBox ⟨0, 0, 0⟩) tetra (.ok whole) ∧
    DiceRun tetra unitBox L 2 2 2 (ascii "a") goodDisk [] out ∧
    ((∃ (file : Bytes) (b' : BinVOX F64), out.1.get (tileFile (ascii "a") ⟨0, 0, 1⟩) = some file ∧
        BinVOX.Read (some ⟨file, true⟩) wholeRegion = some b' ∧ Vox b' ⟨1, 1, 0⟩) ↔
      Vox whole ((⟨1, 1, 0⟩ : Key).shift (0 * L.dimX) (0 * L.dimY) (1 * L.dimZ))) := by
  obtain ⟨L, h⟩ : ∃ L, layout unitBox (ofInt 1) 4 2 2 2 = .ok L := by
    cases h : layout unitBox (ofInt 1) 4 2 2 2 with
    | ok L => exact ⟨L, rfl⟩
    | err => exact absurd h (by decide +kernel)
    | panic => exact absurd h (by decide +kernel)
  obtain ⟨L1, h1⟩ : ∃ L1, layout unitBox (ofInt 1) 4 1 1 1 = .ok L1 := by
    cases h : layout unitBox (ofInt 1) 4 1 1 1 with
    | ok L => exact ⟨L, rfl⟩
    | err => exact absurd h (by decide +kernel)
    | panic => exact absurd h (by decide +kernel)
  have e : L1.dimX = 4 ∧ L1.dimY = 4 ∧ L1.dimZ = 4 := by
    obtain ⟨_, _, _, _, _, _, ev, -, ex, ey, ez, fx, fy, fz, -⟩ := layout_ok h1
    rw [fx, fy, fz, ex, ey, ez, ev]
    decide +kernel
  have d : L.dimX = 2 ∧ L.dimY = 2 ∧ L.dimZ = 2 := by
    obtain ⟨_, _, _, _, _, _, ev, -, ex, ey, ez, fx, fy, fz, -⟩ := layout_ok h
    rw [fx, fy, fz, ex, ey, ez, ev]
    decide +kernel
  obtain ⟨e1, e2, e3⟩ := e
  obtain ⟨d1, d2, d3⟩ := d
  have run : ∀ b : BinVOX F64, ¬ zeroDim b → ∃ out, VoxelizeRun b tetra (.ok out) := by
    intro b hz
    obtain ⟨o, ho⟩ := (voxelize_defined b tetra).1
    obtain ⟨c, hc, -⟩ := voxelize_exact _ _ hz _ ho
    exact ⟨c, hc ▸ ho⟩
  obtain ⟨whole, hw⟩ := run (tileModel L1 unitBox ⟨0, 0, 0⟩) (by
    show ¬ (L1.dimX = 0 ∨ L1.dimY = 0 ∨ L1.dimZ = 0)
    omega)
  choose vox hv using fun t => run (tileModel L unitBox t) (by
    show ¬ (L.dimX = 0 ∨ L.dimY = 0 ∨ L.dimZ = 0)
    omega)
  have hrun : DiceRun tetra unitBox L 2 2 2 (ascii "a") goodDisk [] _ := ⟨vox, hv, rfl⟩
  exact ⟨L, L1, whole, _, h, h1, hw, hrun, dice_f64_end_to_end (R := 3) h h1 (by norm_num) (by norm_num) (by norm_num) (by decide +kernel) (by norm_num)
    (by norm_num) (by rw [e1]; norm_num) (by rw [e2]; norm_num) (by rw [e3]; norm_num) (by rw [e1]; decide +kernel)
    (by rw [e2]; decide +kernel) (by rw [e3]; decide +kernel) (by rw [e1, e2, e3]; exact tetra_general) hw
    (by rw [d1]; decide) (by rw [d2]; decide) (by rw [d3]; decide) goodDisk_good (fun _ _ => rfl) hrun (by decide)
    (by unfold InDims; rw [d1, d2, d3]; decide)⟩

end StlDice
