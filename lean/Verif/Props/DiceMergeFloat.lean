import Verif.Props.DiceScriptFloat
import Verif.Props.DiceThenMerge
import Verif.Props.MergeNear

/-! # C120: stldice and then merge-binvox on its tiles, in float64 -/

namespace StlDice
namespace Cmd
open Spec BinVOX GoFloat F64

/-- Go may visit its maps in any order when it adds the files `ns` to the shell `vs`: the orders in `sch` are possible ones. -/
def GoSchedules (d : Disk) (sch : Bytes → AddSched) : VShell F64 → List Bytes → Prop
  | _, [] => True
  | vs, n :: ns => ∀ b, BinVOX.Read (F := F64) (input d n) wholeRegion = some b →
      (sch n).Valid b (newMove (displacement vs b)).X (newMove (displacement vs b)).Y (newMove (displacement vs b)).Z ∧
      ∀ vs', vs.Add (sch n) b = some vs' → GoSchedules d sch vs' ns

theorem schedule_exists {F : Type} (b : BinVOX F) (dx dy dz : Int) : ∃ s : AddSched, s.Valid b dx dy dz := by
  refine ⟨⟨b.white.keys, b.color.keys, ((b.white.keys ++ b.color.keys).map fun k => k.shift dx dy dz).dedup, 0⟩,
    List.Perm.refl _, List.Perm.refl _, List.nodup_dedup _, ?_⟩
  intro k
  rw [List.mem_dedup, List.mem_map]
  constructor
  · rintro ⟨j, hj, rfl⟩
    refine ⟨j, ?_, rfl⟩
    rw [List.mem_append, GoMap.mem_keys_iff, GoMap.mem_keys_iff] at hj
    exact hj
  · rintro ⟨j, hj, rfl⟩
    refine ⟨j, ?_, rfl⟩
    rw [List.mem_append, GoMap.mem_keys_iff, GoMap.mem_keys_iff]
    exact hj

theorem goSchedules_congr {d : Disk} {s s' : Bytes → AddSched} : ∀ (ns : List Bytes) (vs : VShell F64), (∀ n ∈ ns, s n = s' n) →
    GoSchedules d s vs ns → GoSchedules d s' vs ns := by
  intro ns
  induction ns with
  | nil => intro _ _ _; trivial
  | cons n ns ih =>
    intro vs h hg b hb
    obtain ⟨h1, h2⟩ := hg b hb
    rw [← h n List.mem_cons_self]
    exact ⟨h1, fun vs' ha => ih vs' (fun m hm => h m (List.mem_cons_of_mem _ hm)) (h2 vs' ha)⟩

/-- There always are such orders. -/
theorem goSchedules_exist (d : Disk) : ∀ (ns : List Bytes) (vs : VShell F64), ns.Nodup → ∃ sch, GoSchedules d sch vs ns := by
  intro ns
  induction ns with
  | nil => exact fun _ _ => ⟨fun _ => ⟨[], [], [], 0⟩, trivial⟩
  | cons n ns ih =>
    intro vs hnd
    rw [List.nodup_cons] at hnd
    cases hr : BinVOX.Read (F := F64) (input d n) wholeRegion with
    | none => exact ⟨fun _ => ⟨[], [], [], 0⟩, fun b hb => by rw [hr] at hb; cases hb⟩
    | some b =>
      obtain ⟨s, hs⟩ := schedule_exists b (newMove (displacement vs b)).X (newMove (displacement vs b)).Y (newMove (displacement vs b)).Z
      cases ha : vs.Add s b with
      | none =>
        refine ⟨fun _ => s, fun b' hb => ?_⟩
        rw [hr] at hb
        cases hb
        exact ⟨hs, fun vs' h => by rw [ha] at h; cases h⟩
      | some vs1 =>
        obtain ⟨sch, hsch⟩ := ih vs1 hnd.2
        refine ⟨fun m => if m = n then s else sch m, fun b' hb => ?_⟩
        rw [hr] at hb
        cases hb
        dsimp only
        rw [if_pos rfl]
        refine ⟨hs, fun vs' h => ?_⟩
        rw [ha] at h
        cases h
        refine goSchedules_congr ns _ ?_ hsch
        intro m hm
        rw [if_neg]
        rintro rfl
        exact hnd.1 hm

theorem near_axis_of {V v0 R T0 T1 M : ℚ} {p0 p1 : Int} (hV : 0 < V) (hv : |v0 - V| ≤ V / 2 ^ 50)
    (h0 : |T0 - (M + p0 / V)| ≤ R / 2 ^ 48) (h1 : |T1 - (M + p1 / V)| ≤ R / 2 ^ 48) (hR : R * V ≤ 2 ^ 43) (hp : 0 ≤ p1 - p0)
    (hp' : p1 - p0 ≤ 2 ^ 44) : |(T1 - T0) * v0 - ((p1 - p0 : Int) : ℚ)| ≤ 1 / 8 := by
  have hpq : (0 : ℚ) ≤ ((p1 - p0 : Int) : ℚ) := by exact_mod_cast hp
  have hpq' : ((p1 - p0 : Int) : ℚ) ≤ 2 ^ 44 := by exact_mod_cast hp'
  have e : (T1 - T0) * V - ((p1 - p0 : Int) : ℚ) = (T1 - (M + p1 / V)) * V - (T0 - (M + p0 / V)) * V := by
    push_cast
    field_simp
    ring
  have a0 : |(T0 - (M + p0 / V)) * V| ≤ 1 / 32 := by
    rw [abs_mul, abs_of_pos hV]
    have := mul_le_mul_of_nonneg_right h0 hV.le
    have e : R / 2 ^ 48 * V = R * V / 2 ^ 48 := by ring
    rw [e] at this
    linarith
  have a1 : |(T1 - (M + p1 / V)) * V| ≤ 1 / 32 := by
    rw [abs_mul, abs_of_pos hV]
    have := mul_le_mul_of_nonneg_right h1 hV.le
    have e : R / 2 ^ 48 * V = R * V / 2 ^ 48 := by ring
    rw [e] at this
    linarith
  generalize (T1 - (M + p1 / V)) * V = A1 at *
  generalize (T0 - (M + p0 / V)) * V = A0 at *
  generalize ((p1 - p0 : Int) : ℚ) = p at *
  obtain ⟨b0, b0'⟩ := abs_le.mp a0
  obtain ⟨b1, b1'⟩ := abs_le.mp a1
  have c : |T1 - T0| * V ≤ 2 ^ 44 + 1 := by
    have e' : |T1 - T0| * V = |(T1 - T0) * V| := by rw [abs_mul, abs_of_pos hV]
    rw [e', abs_le]
    constructor <;> linarith
  have c2 : |(T1 - T0) * (v0 - V)| ≤ 1 / 60 := by
    rw [abs_mul]
    have := mul_le_mul_of_nonneg_left hv (abs_nonneg (T1 - T0))
    have e : |T1 - T0| * (V / 2 ^ 50) = |T1 - T0| * V / 2 ^ 50 := by ring
    rw [e] at this
    linarith
  have e2 : (T1 - T0) * v0 = (T1 - T0) * V + (T1 - T0) * (v0 - V) := by ring
  rw [e2]
  generalize (T1 - T0) * (v0 - V) = C at *
  obtain ⟨d1, d2⟩ := abs_le.mp c2
  rw [abs_le]
  constructor <;> linarith

/-- Tiles further up have larger translations. -/
theorem tile_T_mono {m : F64} (hm : 0 ≤ m.val) {c : F64} {i j : Int} (h : i ≤ j) :
    (add c (mul (ofInt i) m) : F64).val ≤ (add c (mul (ofInt j) m) : F64).val := by
  have h1 : (ofInt i : F64).val ≤ (ofInt j : F64).val := rnd_mono (by exact_mod_cast h)
  have h2 : (mul (ofInt i) m : F64).val ≤ (mul (ofInt j) m : F64).val := rnd_mono (mul_le_mul_of_nonneg_right h1 hm)
  exact rnd_mono (by linarith)

section
variable {load : Bytes → Option (Mesh F64)} {bbox : Mesh F64 → Box F64} {fl : DiceFlags F64} {fs : FS} {base : Bytes}
  {cuts : List Bytes} {mesh : Bytes → Mesh F64} {L L1 : Layout F64} {R : ℚ} {whole : Bytes → BinVOX F64}

/-- The tiles of a job in float64, read back. -/
theorem diceCmd_tiles_f64 {env : Bytes → Key → FileEnv} (henv : ∀ a t, GoodEnv (env a t)) {fs' : FS} {out : Bytes}
    (job : GoodJob64 load bbox fl fs base cuts mesh L L1 R whole) (h : DiceCmd load bbox env fl fs out fs' .done) {t : Key}
    (ht : InDims fl.nx fl.ny fl.nz t) {a : Bytes} (ha : a ∈ fl.args) :
    ReadsAs L (jobBox bbox fl (mesh base)) t (BinVOX.Read (input fs'.get (tileBin fl a t)) wholeRegion)
      (fun l => InDims L.dimX L.dimY L.dimZ l ∧ Vox (whole a) (inWhole L t l)) :=
  (diceCmd_tiles_any henv job.files (W := fun a t l => Vox (whole a) (inWhole L t l)) (by
      intro a ha t ht vox hvox l hl
      exact dice_f64_same_voxels job.files.layout job.undiced job.files.divs.1 job.files.divs.2.1 job.files.divs.2.2 job.scale
        job.files.dim job.dim job.sizeX job.sizeY job.sizeZ job.insideX job.insideY job.insideZ (job.general a ha) (job.voxelized a ha)
        ((mem_tileIndices _ _ _ t).mpr ht) hvox hl) h).1 t ht a ha

/-- **C120.** stldice and then merge-binvox on the tiles of one of its meshes, in float64. If the first file found is a tile that is not
    empty and lies, in all three directions, at or before every tile with a file, the grid is not too large for its number of files
    (`2^44` voxels times files), and the job's resolution `V` keeps a distance of `2^-47` of itself per file from the whole numbers `k0`
    and `k0 + 1` around it: the merge succeeds, whatever the map orders; the shell has the place of the first tile and the job's
    resolution up to the last few bits per file; every tile is put in its place or one voxel short of it along an axis; and the shell
    lists only voxels, and all exposed voxels, of the undiced model cut into the tiles put so. -/
theorem dice_then_merge_near_f64 {env : Bytes → Key → FileEnv} (henv : ∀ a t, GoodEnv (env a t)) {fs' : FS} {out : Bytes}
    (job : GoodJob64 load bbox fl fs base cuts mesh L L1 R whole) (h : DiceCmd load bbox env fl fs out fs' .done)
    {a : Bytes} (ha : a ∈ fl.args) {t0 : Key} (h0 : InDims fl.nx fl.ny fl.nz t0)
    (hw : ∃ l, InDims L.dimX L.dimY L.dimZ l ∧ Vox (whole a) (inWhole L t0 l)) {ns : List Bytes} {sch : Bytes → AddSched}
    (hg : Glob fs'.get (jobName (trimStl a) fl.dim fl.nx fl.ny fl.nz) (ascii ".binvox") (tileBin fl a t0 :: ns))
    (hown : ∀ n ∈ ns, ∃ t, InDims fl.nx fl.ny fl.nz t ∧ n = tileBin fl a t)
    (hfirst : ∀ t, InDims fl.nx fl.ny fl.nz t → fs'.get (tileBin fl a t) ≠ none → KLe t0 t)
    {V : ℚ} (hV : V = fl.dim / (boxScale (jobBox bbox fl (mesh base))).val)
    (hV1 : (2 : ℚ) ^ (-397 : Int) ≤ V) (hV2 : V ≤ 2 ^ (397 : Int)) (hR : R * V ≤ 2 ^ 43) (hm : ns.length + 1 ≤ 2 ^ 40)
    (hsize : ((ns.length + 1 : Nat) : Int) * (fl.nx * L.dimX) ≤ 2 ^ 44 ∧ ((ns.length + 1 : Nat) : Int) * (fl.ny * L.dimY) ≤ 2 ^ 44 ∧
      ((ns.length + 1 : Nat) : Int) * (fl.nz * L.dimZ) ≤ 2 ^ 44)
    {k0 : Int} (hk : 0 ≤ k0) (lo : (k0 : ℚ) + (ns.length + 2 : Nat) * (V / 2 ^ 47) ≤ V) (hi : V + (ns.length + 2 : Nat) * (V / 2 ^ 47) < k0 + 1)
    (hsch : ∀ b, BinVOX.Read (F := F64) (input fs'.get (tileBin fl a t0)) wholeRegion = some b →
      (sch (tileBin fl a t0)).Valid b 0 0 0 ∧ ∀ vs, VShell.New (sch (tileBin fl a t0)) b = some vs → GoSchedules fs'.get sch vs ns) :
    ∃ (vs : VShell F64) (d : Key → Key),
      VShell.Merge ((tileBin fl a t0 :: ns).map fun f => (sch f, BinVOX.Read (F := F64) (input fs'.get f) wholeRegion)) = some (some vs) ∧
      d t0 = ⟨0, 0, 0⟩ ∧
      (∀ t, InDims fl.nx fl.ny fl.nz t → fs'.get (tileBin fl a t) ≠ none →
        NearMove ⟨(t.X - t0.X) * L.dimX, (t.Y - t0.Y) * L.dimY, (t.Z - t0.Z) * L.dimZ⟩ (d t)) ∧
      KeepsShell (fun k => ∃ t l, InDims fl.nx fl.ny fl.nz t ∧ InDims L.dimX L.dimY L.dimZ l ∧ Vox (whole a) (inWhole L t l) ∧
        k = l.shift (d t).X (d t).Y (d t).Z) vs.Voxels ∧ vs.Voxels ≠ [] ∧
      (vs.NX ≤ (fl.nx - t0.X) * L.dimX ∧ vs.NY ≤ (fl.ny - t0.Y) * L.dimY ∧ vs.NZ ≤ (fl.nz - t0.Z) * L.dimZ) ∧
      vs.TX = (tileModel L (jobBox bbox fl (mesh base)) t0).TX ∧ vs.TY = (tileModel L (jobBox bbox fl (mesh base)) t0).TY ∧
      vs.TZ = (tileModel L (jobBox bbox fl (mesh base)) t0).TZ ∧
      |vs.VoxelsPerMM.val - V| ≤ (ns.length + 2 : Nat) * (V / 2 ^ 47) := by
  have nn : ∀ {t}, InDims fl.nx fl.ny fl.nz t → 0 ≤ t.X ∧ 0 ≤ t.Y ∧ 0 ≤ t.Z := by
    intro t ht
    unfold InDims at ht
    omega
  generalize hB : jobBox bbox fl (mesh base) = B at *
  have grid := job.grid
  rw [hB] at grid
  have hreads : ∀ t, InDims fl.nx fl.ny fl.nz t → ReadsAs L B t (BinVOX.Read (input fs'.get (tileBin fl a t)) wholeRegion)
      (fun l => InDims L.dimX L.dimY L.dimZ l ∧ Vox (whole a) (inWhole L t l)) := by
    intro t ht
    rw [← hB]
    exact diceCmd_tiles_f64 henv job h ht ha
  obtain ⟨hcont, -⟩ := diceCmd_content henv job.files h
  obtain ⟨⟨px, -⟩, ⟨py, -⟩, ⟨pz, -⟩⟩ := job.files.dims
  have V0 : 0 < V := lt_of_lt_of_le (by positivity) hV1
  -- what is in the files
  have hall : ∀ n ∈ tileBin fl a t0 :: ns, ∃ t, InDims fl.nx fl.ny fl.nz t ∧ n = tileBin fl a t := by
    intro n hn
    rcases List.mem_cons.mp hn with rfl | hn
    · exact ⟨t0, h0, rfl⟩
    · exact hown n hn
  have hmem : ∀ t, InDims fl.nx fl.ny fl.nz t → (tileBin fl a t ∈ tileBin fl a t0 :: ns ↔ fs'.get (tileBin fl a t) ≠ none) := by
    intro t ht
    rw [hg.2]
    constructor
    · exact fun h => h.1
    · intro h
      refine ⟨h, tileSuffix t, suffix_no_slash (nn ht), ?_⟩
      rw [tileBin_suffix, List.append_assoc]
  have hfile : ∀ t, InDims fl.nx fl.ny fl.nz t → fs'.get (tileBin fl a t) ≠ none →
      ∃ b, BinVOX.Read (F := F64) (input fs'.get (tileBin fl a t)) wholeRegion = some b := by
    intro t ht hne
    obtain ⟨vox, hvox, e⟩ := hcont t ht a ha
    rw [e] at hne
    unfold input
    rw [e]
    exact tile_content_read job.files.dims.1 job.files.dims.2.1 job.files.dims.2.2 hvox hne
  have htile : ∀ n, ∃ t, n ∈ tileBin fl a t0 :: ns → InDims fl.nx fl.ny fl.nz t ∧ n = tileBin fl a t := by
    intro n
    by_cases hn : n ∈ tileBin fl a t0 :: ns
    · obtain ⟨t, ht⟩ := hall n hn
      exact ⟨t, fun _ => ht⟩
    · exact ⟨t0, fun h => absurd h hn⟩
  choose T hT using htile
  have hmodel : ∀ n, ∃ b, n ∈ tileBin fl a t0 :: ns → BinVOX.Read (F := F64) (input fs'.get n) wholeRegion = some b ∧
      InPlace L B (T n) b ∧ ∀ l, Vox b l ↔ InDims L.dimX L.dimY L.dimZ l ∧ Vox (whole a) (inWhole L (T n) l) := by
    intro n
    by_cases hn : n ∈ tileBin fl a t0 :: ns
    · obtain ⟨ht, e⟩ := hT n hn
      have hne : fs'.get (tileBin fl a (T n)) ≠ none := by rw [← e]; exact ((hg.2 n).mp hn).1
      obtain ⟨b, hb⟩ := hfile _ ht hne
      rcases hreads _ ht with ⟨h1, -⟩ | ⟨b', h1, h2, h3⟩
      · rw [hb] at h1; cases h1
      · exact ⟨b', fun _ => ⟨by rw [e]; exact h1, h2, h3⟩⟩
    · exact ⟨tileModel L B t0, fun h => absurd h hn⟩
  choose M hM using hmodel
  have hT0 : T (tileBin fl a t0) = t0 := by
    obtain ⟨ht, e⟩ := hT (tileBin fl a t0) (by simp)
    exact (tileBin_inj fl a (nn h0) (nn ht) e).symm
  have h00 : tileBin fl a t0 ∈ tileBin fl a t0 :: ns := by simp
  have hocc : ∀ n ∈ tileBin fl a t0 :: ns, ∀ l, Occ (M n) l ↔ InDims L.dimX L.dimY L.dimZ l ∧ Vox (whole a) (inWhole L (T n) l) := by
    intro n hn l
    obtain ⟨-, hp, hv⟩ := hM n hn
    rw [← hv]
    have hc : (M n).color = [] := hp.white
    constructor
    · rintro (h | h)
      · exact h
      · rw [hc] at h; cases h
    · exact Or.inl
  have hle : ∀ n ∈ tileBin fl a t0 :: ns, KLe t0 (T n) := by
    intro n hn
    obtain ⟨ht, e⟩ := hT n hn
    exact hfirst (T n) ht (by rw [← e]; exact ((hg.2 n).mp hn).1)
  have hvp : ∀ n ∈ tileBin fl a t0 :: ns, |(M n).VoxelsPerMM.val - V| ≤ V / 2 ^ 50 := by
    intro n hn
    obtain ⟨ht, -⟩ := hT n hn
    have hp := (hM n hn).2.1
    have := (grid.near ht).pitch
    rw [gridPart_vpmm (by rw [← hV]; exact V0) px, ← hV] at this
    have e : (M n).VoxelsPerMM = (tileModel L B (T n)).VoxelsPerMM := by
      unfold BinVOX.VoxelsPerMM
      rw [hp.nx, hp.ny, hp.nz, hp.scale]
      rfl
    rw [e]
    exact this
  -- the first model
  obtain ⟨v1, v2⟩ := abs_le.mp (hvp _ h00)
  have hx0 : (0 : ℚ) ≤ (ns.length : ℚ) := by positivity
  push_cast at lo hi
  have hk0 : (0 : ℚ) ≤ k0 := by exact_mod_cast hk
  have b1 : (2 : ℚ) ^ (-398 : Int) ≤ (M (tileBin fl a t0)).VoxelsPerMM.val := by
    have e : (2 : ℚ) ^ (-397 : Int) = 2 * 2 ^ (-398 : Int) := by rw [← zpow_one_add₀ (by norm_num)]; norm_num
    rw [e] at hV1
    clear e hV2
    generalize (2 : ℚ) ^ (-398 : Int) = x at *
    linarith
  have b2 : (M (tileBin fl a t0)).VoxelsPerMM.val ≤ (2 : ℚ) ^ (398 : Int) := by
    have e : (2 : ℚ) ^ (398 : Int) = 2 * 2 ^ (397 : Int) := by rw [← zpow_one_add₀ (by norm_num)]; norm_num
    rw [e]
    clear e b1 hV1
    generalize (2 : ℚ) ^ (397 : Int) = x at *
    linarith
  have hp0 := (hM _ h00).2.1
  have hscale : 0 < (M (tileBin fl a t0)).Scale.val := by
    rw [hp0.scale]
    obtain ⟨_, _, _, _, _, _, ev, em, _, _, _, _, _, _, es⟩ := layout_ok grid.layout
    have D1 : 1 ≤ dimOf L.dimX L.dimY L.dimZ := dimOf_pos px
    obtain ⟨l1, l2, l3⟩ := grid.dims_le
    have hD : dimOf L.dimX L.dimY L.dimZ ≤ 2 ^ 50 := dimOf_le_of (by have := grid.sizeX; omega) (by have := grid.sizeY; omega) (by have := grid.sizeZ; omega)
    have tp := (tile_pitch (D := (dimOf L.dimX L.dimY L.dimZ : Int)) grid.lo grid.hi (by exact_mod_cast D1)).1
    have e1 : L.vpmm.val = rnd ((fl.dim : ℚ) / (boxScale B).val) := by
      rw [ev]
      show rnd ((ofInt fl.dim : F64).val / (boxScale B).val) = _
      rw [show (ofInt fl.dim : F64).val = (fl.dim : ℚ) from of_exact (binary64_int (by rw [abs_of_pos grid.dim0]; exact grid.dim1))]
    have e2 : L.mmpv.val = rnd (1 / L.vpmm.val) := by
      rw [em]
      show rnd ((ofInt 1 : F64).val / L.vpmm.val) = _
      rw [show (ofInt 1 : F64).val = 1 from by rw [show (ofInt 1 : F64).val = ((1 : Int) : ℚ) from of_exact (binary64_int (by norm_num))]; norm_num]
    have e3 : L.subScale.val = rnd ((dimOf L.dimX L.dimY L.dimZ : Int) * L.mmpv.val) := by
      rw [es]
      show rnd ((ofInt (dimOf L.dimX L.dimY L.dimZ) : F64).val * L.mmpv.val) = _
      rw [show (ofInt (dimOf L.dimX L.dimY L.dimZ) : F64).val = (dimOf L.dimX L.dimY L.dimZ : ℚ) from
        of_exact (binary64_int (by rw [abs_of_nonneg (by omega)]; omega))]
    rw [e3, e2, e1]
    exact tp
  have hdim : 0 < (M (tileBin fl a t0)).Dim := by
    unfold BinVOX.Dim
    rw [hp0.nx, hp0.ny, hp0.nz]
    exact dimOf_pos px
  have hwhite : (M (tileBin fl a t0)).white ≠ [] := by
    obtain ⟨l, hl, hv⟩ := hw
    have : Vox (M (tileBin fl a t0)) l := ((hM _ h00).2.2 l).mpr ⟨hl, by rw [hT0]; exact hv⟩
    intro he
    unfold Vox at this
    rw [he] at this
    cases this
  obtain ⟨hval, hgo⟩ := hsch _ (hM _ h00).1
  have hmm : 0 ≤ L.mmpv.val := by
    obtain ⟨_, _, _, _, _, _, ev, em, _⟩ := layout_ok grid.layout
    rw [em]
    show 0 ≤ rnd ((ofInt 1 : F64).val / L.vpmm.val)
    refine rnd_nonneg (div_nonneg (rnd_nonneg (by norm_num)) ?_)
    rw [ev]
    show 0 ≤ rnd ((ofInt fl.dim : F64).val / (boxScale B).val)
    exact rnd_nonneg (div_nonneg (rnd_nonneg (by exact_mod_cast grid.dim0.le)) grid.scale.le)
  let info : Bytes → NFile := fun n => ⟨sch n, M n, ⟨((T n).X - t0.X) * L.dimX, ((T n).Y - t0.Y) * L.dimY, ((T n).Z - t0.Z) * L.dimZ⟩⟩
  let N : Key := ⟨(fl.nx - t0.X) * L.dimX, (fl.ny - t0.Y) * L.dimY, (fl.nz - t0.Z) * L.dimZ⟩
  -- one axis
  have axis : ∀ {i j n d : Int}, 0 ≤ i → i ≤ j → j < n → 0 < d → ((ns.length + 1 : Nat) : Int) * (n * d) ≤ 2 ^ 44 →
      0 ≤ (j - i) * d ∧ (j - i) * d + d ≤ (n - i) * d ∧ ((ns.length + 1 : Nat) : Int) * ((j - i) * d) ≤ 2 ^ 44 ∧ (n - i) * d ≤ 2 ^ 44 ∧
        j * d - i * d = (j - i) * d ∧ i * d ≤ j * d := by
    intro i j n d h1 h2 h3 h4 h5
    have c1 : 0 ≤ (j - i) * d := Int.mul_nonneg (by omega) h4.le
    have c2 : (j - i + 1) * d ≤ (n - i) * d := Int.mul_le_mul_of_nonneg_right (by omega) h4.le
    have c3 : (j - i) * d ≤ n * d := Int.mul_le_mul_of_nonneg_right (by omega) h4.le
    have c4 : ((ns.length + 1 : Nat) : Int) * ((j - i) * d) ≤ ((ns.length + 1 : Nat) : Int) * (n * d) :=
      Int.mul_le_mul_of_nonneg_left c3 (by positivity)
    have c5 : (n - i) * d ≤ n * d := Int.mul_le_mul_of_nonneg_right (by omega) h4.le
    have c6 : 1 * (n * d) ≤ ((ns.length + 1 : Nat) : Int) * (n * d) :=
      Int.mul_le_mul_of_nonneg_right (by push_cast; omega) (by omega)
    have c7 : (j - i + 1) * d = (j - i) * d + d := by ring
    have c8 : j * d - i * d = (j - i) * d := by ring
    refine ⟨c1, by omega, by omega, by omega, c8, by omega⟩
  have hAx : ∀ n ∈ tileBin fl a t0 :: ns, _ := fun n hn =>
    axis (nn h0).1 (hle n hn).1 (by have := (hT n hn).1; unfold InDims at this; omega) px hsize.1
  have hAy : ∀ n ∈ tileBin fl a t0 :: ns, _ := fun n hn =>
    axis (nn h0).2.1 (hle n hn).2.1 (by have := (hT n hn).1; unfold InDims at this; omega) py hsize.2.1
  have hAz : ∀ n ∈ tileBin fl a t0 :: ns, _ := fun n hn =>
    axis (nn h0).2.2 (hle n hn).2.2 (by have := (hT n hn).1; unfold InDims at this; omega) pz hsize.2.2
  have near0 := grid.near h0
  have hp44 : ∀ {p : Int}, 0 ≤ p → ((ns.length + 1 : Nat) : Int) * p ≤ 2 ^ 44 → p ≤ 2 ^ 44 := by
    intro p h1 h2
    have : 1 * p ≤ ((ns.length + 1 : Nat) : Int) * p := Int.mul_le_mul_of_nonneg_right (by push_cast; omega) h1
    omega
  have hnear : ∀ n ∈ tileBin fl a t0 :: ns, NearFile (ns.length + 1) (M (tileBin fl a t0)) (M n) (info n).at' N := by
    intro n hn
    obtain ⟨ht, -⟩ := hT n hn
    have nt := grid.near ht
    have hp := (hM n hn).2.1
    obtain ⟨x1, x2, x3, x4, x5, x6⟩ := hAx n hn
    obtain ⟨y1, y2, y3, y4, y5, y6⟩ := hAy n hn
    obtain ⟨z1, z2, z3, z4, z5, z6⟩ := hAz n hn
    refine ⟨⟨x1, ?_, x3, ?_⟩, ⟨y1, ?_, y3, ?_⟩, ⟨z1, ?_, z3, ?_⟩, ?_⟩
    · rw [hp.tx, hp0.tx, hT0]
      exact tile_T_mono hmm x6
    · rw [hp.tx, hp0.tx, hT0]
      have e := near_axis_of (p0 := t0.X * L.dimX) (p1 := (T n).X * L.dimX) V0 (hvp _ h00) (by rw [hV]; exact near0.tx) (by rw [hV]; exact nt.tx) hR
        (by rw [x5]; exact x1) (by rw [x5]; exact hp44 x1 x3)
      rw [x5] at e
      exact e
    · rw [hp.ty, hp0.ty, hT0]
      exact tile_T_mono hmm y6
    · rw [hp.ty, hp0.ty, hT0]
      have e := near_axis_of (p0 := t0.Y * L.dimY) (p1 := (T n).Y * L.dimY) V0 (hvp _ h00) (by rw [hV]; exact near0.ty) (by rw [hV]; exact nt.ty) hR
        (by rw [y5]; exact y1) (by rw [y5]; exact hp44 y1 y3)
      rw [y5] at e
      exact e
    · rw [hp.tz, hp0.tz, hT0]
      exact tile_T_mono hmm z6
    · rw [hp.tz, hp0.tz, hT0]
      have e := near_axis_of (p0 := t0.Z * L.dimZ) (p1 := (T n).Z * L.dimZ) V0 (hvp _ h00) (by rw [hV]; exact near0.tz) (by rw [hV]; exact nt.tz) hR
        (by rw [z5]; exact z1) (by rw [z5]; exact hp44 z1 z3)
      rw [z5] at e
      exact e
    · intro k hk'
      obtain ⟨hd, -⟩ := (hocc n hn k).mp hk'
      unfold InDims at hd
      dsimp only [info, N]
      omega
  have hint : ∀ n ∈ tileBin fl a t0 :: ns, toInt (M n).VoxelsPerMM = k0 := by
    intro n hn
    have hx1 : (0 : ℚ) ≤ ns.length * (V / 2 ^ 47) := by positivity
    refine whole_part hk V0 (le_refl 1) ?_ ?_ (v0 := V) ?_
    · push_cast; linarith
    · push_cast; linarith
    · have := hvp n hn
      push_cast
      linarith
  have hlen : (ns.map info).length = ns.length := by simp
  have hns1 : ((ns.length : ℚ) + 1) * ((M (tileBin fl a t0)).VoxelsPerMM.val / 2 ^ 48) ≤ (ns.length + 1) * (V / 2 ^ 47) :=
    mul_le_mul_of_nonneg_left (by linarith) (by positivity)
  have hgo' : ∀ (l : List Bytes) (vs : VShell F64), (∀ n ∈ l, n ∈ tileBin fl a t0 :: ns) → GoSchedules fs'.get sch vs l → SchedsFrom vs (l.map info) := by
    intro l
    induction l with
    | nil => intro _ _ _; trivial
    | cons n l ih =>
      intro vs hl hgs
      obtain ⟨g1, g2⟩ := hgs _ (hM n (hl n List.mem_cons_self)).1
      exact ⟨g1, fun vs' hadd => ih vs' (fun m hm => hl m (List.mem_cons_of_mem _ hm)) (g2 vs' hadd)⟩
  have hN0 := hAx _ h00
  have hN1 := hAy _ h00
  have hN2 := hAz _ h00
  rw [hT0] at hN0 hN1 hN2
  obtain ⟨vs, d, hmerge, hd, hkeep, hne, t1, t2, t3, hdims, hres⟩ := merge_near_f64 (b0 := M (tileBin fl a t0)) (s0 := sch (tileBin fl a t0))
    (fs := ns.map info) (N := N) hk hscale hdim b1 b2 (by rw [hlen]; exact hm)
    (by rw [hlen]; push_cast; linarith) (by rw [hlen]; push_cast; linarith)
    (by dsimp only [N]; refine ⟨by omega, by omega, by omega⟩)
    (by rw [hp0.nx, hp0.ny, hp0.nz]; dsimp only [N]; rw [sub_self, zero_mul] at hN0 hN1 hN2; omega)
    (by
      intro k hk'
      have := (hnear _ h00).inside k hk'
      dsimp only [info] at this
      rw [hT0, sub_self, sub_self, sub_self, zero_mul, zero_mul, zero_mul, add_zero, add_zero, add_zero] at this
      exact this)
    hwhite hval
    (by
      intro f hf
      obtain ⟨n, hn, rfl⟩ := List.mem_map.mp hf
      rw [hlen]
      exact ⟨hnear n (List.mem_cons_of_mem _ hn), hint n (List.mem_cons_of_mem _ hn)⟩)
    (fun vs hv => hgo' ns vs (fun n hn => List.mem_cons_of_mem _ hn) (hgo vs hv))
  have hnd := List.nodup_cons.mp hg.1
  classical
  refine ⟨vs, fun t => if t = t0 then ⟨0, 0, 0⟩ else d (ns.idxOf (tileBin fl a t)), ?_, if_pos rfl, ?_, ?_, hne, hdims, ?_, ?_, ?_, ?_⟩
  · rw [← hmerge, List.map_cons, List.map_map]
    congr 1
    rw [List.cons.injEq]
    refine ⟨by rw [(hM _ h00).1], List.map_congr_left ?_⟩
    intro n hn
    rw [(hM n (List.mem_cons_of_mem _ hn)).1]
    rfl
  · intro t ht hf
    dsimp only
    split
    · rename_i e
      rw [e, sub_self, sub_self, sub_self, zero_mul, zero_mul, zero_mul]
      unfold NearMove
      decide
    · rename_i hne'
      have hn : tileBin fl a t ∈ ns := by
        rcases List.mem_cons.mp ((hmem t ht).mpr hf) with h | h
        · exact absurd (tileBin_inj fl a (nn ht) (nn h0) h) hne'
        · exact h
      have hi' : ns.idxOf (tileBin fl a t) < ns.length := List.idxOf_lt_length_iff.mpr hn
      have := hd (ns.idxOf (tileBin fl a t)) (info (tileBin fl a t)) (by
        rw [List.getElem?_map, List.getElem?_eq_getElem hi', List.getElem_idxOf]
        rfl)
      have hTt : T (tileBin fl a t) = t := by
        obtain ⟨q, e⟩ := hT _ (List.mem_cons_of_mem _ hn)
        exact (tileBin_inj fl a (nn ht) (nn q) e).symm
      dsimp only [info] at this
      rw [hTt] at this
      exact this
  · have e : (fun k => ∃ t l, InDims fl.nx fl.ny fl.nz t ∧ InDims L.dimX L.dimY L.dimZ l ∧ Vox (whole a) (inWhole L t l) ∧
        k = l.shift (if t = t0 then (⟨0, 0, 0⟩ : Key) else d (ns.idxOf (tileBin fl a t))).X (if t = t0 then (⟨0, 0, 0⟩ : Key) else d (ns.idxOf (tileBin fl a t))).Y
          (if t = t0 then (⟨0, 0, 0⟩ : Key) else d (ns.idxOf (tileBin fl a t))).Z) =
        (fun k => Occ (M (tileBin fl a t0)) k ∨ ∃ (i : Nat) (f : NFile), (ns.map info)[i]? = some f ∧ Moved (Occ f.bv) (d i) k) := by
      funext k
      apply propext
      constructor
      · rintro ⟨t, l, ht, hl, hv, rfl⟩
        have hex : fs'.get (tileBin fl a t) ≠ none := by
          intro hno
          rcases hreads t ht with ⟨-, h3⟩ | ⟨b, e, -⟩
          · exact h3 l ⟨hl, hv⟩
          · unfold input at e
            rw [hno] at e
            cases e
        have hn := (hmem t ht).mpr hex
        have hTt : T (tileBin fl a t) = t := by
          obtain ⟨q, e⟩ := hT _ hn
          exact (tileBin_inj fl a (nn ht) (nn q) e).symm
        have ho : Occ (M (tileBin fl a t)) l := (hocc _ hn l).mpr ⟨hl, by rw [hTt]; exact hv⟩
        by_cases e : t = t0
        · left
          subst e
          simp only [if_pos]
          have : l.shift 0 0 0 = l := by unfold Key.shift; simp
          rw [this]
          exact ho
        · right
          simp only [if_neg e]
          have hn' : tileBin fl a t ∈ ns := by
            rcases List.mem_cons.mp hn with h | h
            · exact absurd (tileBin_inj fl a (nn ht) (nn h0) h) e
            · exact h
          have hi' : ns.idxOf (tileBin fl a t) < ns.length := List.idxOf_lt_length_iff.mpr hn'
          refine ⟨ns.idxOf (tileBin fl a t), info (tileBin fl a t), ?_, ?_⟩
          · rw [List.getElem?_map, List.getElem?_eq_getElem hi', List.getElem_idxOf]
            rfl
          · unfold Moved Key.shift
            simp only [add_sub_cancel_right]
            exact ho
      · rintro (ho | ⟨i, f, hf, ho⟩)
        · obtain ⟨hl, hv⟩ := (hocc _ h00 k).mp ho
          rw [hT0] at hv
          refine ⟨t0, k, h0, hl, hv, ?_⟩
          simp only [if_pos]
          unfold Key.shift
          simp
        · rw [List.getElem?_map, Option.map_eq_some_iff] at hf
          obtain ⟨n, hi', rfl⟩ := hf
          have hn := List.mem_of_getElem? hi'
          have hn' := List.mem_cons_of_mem (tileBin fl a t0) hn
          obtain ⟨ht, e⟩ := hT n hn'
          obtain ⟨hl, hv⟩ := (hocc n hn' _).mp ho
          have hne' : T n ≠ t0 := by
            intro e'
            rw [e'] at e
            exact hnd.1 (e ▸ hn)
          have hidx : ns.idxOf (tileBin fl a (T n)) = i := by
            rw [← e]
            obtain ⟨hil, e2⟩ := List.getElem?_eq_some_iff.mp hi'
            rw [← e2]
            exact hnd.2.idxOf_getElem i hil
          refine ⟨T n, _, ht, hl, hv, ?_⟩
          simp only [if_neg hne', hidx]
          unfold Key.shift
          simp
    show KeepsShell (fun k => ∃ t l, InDims fl.nx fl.ny fl.nz t ∧ InDims L.dimX L.dimY L.dimZ l ∧ Vox (whole a) (inWhole L t l) ∧
        k = l.shift (if t = t0 then (⟨0, 0, 0⟩ : Key) else d (ns.idxOf (tileBin fl a t))).X (if t = t0 then (⟨0, 0, 0⟩ : Key) else d (ns.idxOf (tileBin fl a t))).Y
          (if t = t0 then (⟨0, 0, 0⟩ : Key) else d (ns.idxOf (tileBin fl a t))).Z) vs.Voxels
    rw [e]
    exact hkeep
  · rw [t1, hp0.tx, hT0]
  · rw [t2, hp0.ty, hT0]
  · rw [t3, hp0.tz, hT0]
  · rw [hlen] at hres
    push_cast at hres ⊢
    obtain ⟨r1, r2⟩ := abs_le.mp hres
    have : V / 2 ^ 50 ≤ V / 2 ^ 47 := div_le_div_of_nonneg_left V0.le (by norm_num) (by norm_num)
    rw [abs_le]
    constructor <;> linarith

end

/-- No file of the directory, and no tile of the other mesh, is taken for a tile of `a.stl`. -/
theorem exDir_own64 {load : Bytes → Option (Mesh F64)} {bbox : Mesh F64 → Box F64}
    {env : Bytes → Key → FileEnv} (henv : ∀ a t, GoodEnv (env a t)) {fl : DiceFlags F64} {fs' : FS} {out : Bytes}
    {mesh : Bytes → Mesh F64} {L : Layout F64} (job : JobFiles load bbox fl exDir (ascii "a.stl") [] mesh L)
    (h : DiceCmd load bbox env fl exDir out fs' .done)
    {n : Bytes} (hn : fs'.get n ≠ none) {mid : Bytes} (e : n = jobName (trimStl (ascii "a.stl")) fl.dim fl.nx fl.ny fl.nz ++ mid ++ ascii ".binvox") :
    ∃ t, InDims fl.nx fl.ny fl.nz t ∧ n = tileBin fl (ascii "a.stl") t := by
  by_contra hno
  push Not at hno
  apply hn
  rw [(diceCmd_content henv job h).2 n ?_]
  · refine exDir_get ?_ ?_ <;>
    · intro e'
      rw [e] at e'
      have := congrArg List.getLast? e'
      rw [List.getLast?_append] at this
      exact absurd (show some (120 : UInt8) = some 108 from this) (by decide)
  · intro a ha t ht e'
    rw [job.args] at ha
    rcases List.mem_cons.mp ha with rfl | ha
    · exact hno t ht e'
    · cases ha

/-- A shell whose voxels lie inside the dimensions of its model keeps scale and dimensions of the model. -/
theorem new_inside {b0 : BinVOX F64} {s0 : AddSched} {vs : VShell F64} (hw : b0.white ≠ []) (hv : s0.Valid b0 0 0 0)
    (hin : ∀ k, Occ b0 k → k.X < b0.NX ∧ k.Y < b0.NY ∧ k.Z < b0.NZ) (e : VShell.New s0 b0 = some vs) :
    vs.VoxelsPerMM = b0.VoxelsPerMM := by
  unfold VShell.New at e
  have hl : b0.white.length > 0 := List.length_pos_iff.mpr hw
  dsimp only at e
  rw [if_pos hl, Add_eq_nil _ _ _ rfl] at e
  cases e
  have hm : ∀ k ∈ movedKeys s0 ⟨0, 0, 0⟩, k.X < b0.NX ∧ k.Y < b0.NY ∧ k.Z < b0.NZ := by
    intro k hk
    have := (mem_movedKeys (p := ⟨0, 0, 0⟩) hv k).mp hk
    unfold Moved at this
    simp only [sub_zero] at this
    exact hin k this
  generalize movedKeys s0 ⟨0, 0, 0⟩ = ks at hm
  generalize addVoxels _ _ _ _ = vv
  have hc : ∀ (f : Key → Int) (n : Int), (∀ k ∈ ks, f k < n) → cover n (ks.map f) = n := by
    intro f n hf
    refine le_antisymm (cover_le _ _ _ (le_refl _) ?_) ?_
    · intro c hc
      obtain ⟨k, hk, rfl⟩ := List.mem_map.mp hc
      exact hf k hk
    · exact (le_cover _ _).1
  unfold grown
  dsimp only
  rw [hc _ _ fun k hk => (hm k hk).1, hc _ _ fun k hk => (hm k hk).2.1, hc _ _ fun k hk => (hm k hk).2.2]
  unfold VShell.adjustScale
  dsimp only
  have : GoFloat.eq (VShell.VoxelsPerMM (⟨b0.NX, b0.NY, b0.NZ, b0.TX, b0.TY, b0.TZ, b0.Scale, []⟩ : VShell F64))
      (VShell.VoxelsPerMM (⟨b0.NX, b0.NY, b0.NZ, b0.TX, b0.TY, b0.TZ, b0.Scale, []⟩ : VShell F64)) = true := by
    show decide (_ = _) = true
    simp
  rw [this]
  rfl

/-! ## A job: two tiles of a box of 0.3 mm from 0.1 mm on -/

/-- A corner of the mesh, its place given in parts of the box. -/
def ovVtx (x y z : ℚ) (n : Vec F64) : Vertex F64 := vtx (1 / 10 + 3 / 10 * x) (3 / 10 * y) (3 / 10 * z) n

/-- A tetrahedron in the box. -/
def ovMesh : Mesh F64 where
  heap i :=
    let a := ovVtx (1 / 16) (1 / 8) (1 / 16)
    let b := ovVtx (15 / 16) (1 / 3) (3 / 16)
    let c := ovVtx (1 / 3) (13 / 16) (5 / 32)
    let d := ovVtx (5 / 16) (3 / 8) (15 / 16)
    let e : Vec F64 := ⟨ofInt 1, ofInt 0, ofInt 0⟩
    let f : Vec F64 := ⟨ofInt (-1), ofInt 0, ofInt 0⟩
    let g : Vec F64 := ⟨ofInt 0, ofInt 0, ofInt (-1)⟩
    [(⟨a g, c g, b g⟩ : Triangle F64), ⟨a e, b e, d e⟩, ⟨b e, c e, d e⟩].getD i ⟨c f, a f, d f⟩
  Triangles := [0, 1, 2, 3]

def ovBox : Box F64 := ⟨⟨of (1 / 10), ofInt 0, ofInt 0⟩, ⟨of (2 / 5), of (3 / 10), of (3 / 10)⟩⟩

/-- The flags of `stldice -mbb 0.1,0,0,0.4,0.3,0.3 -dim 2 -nx 2 -ny 1 -nz 1 a.stl`. -/
def ovFlags : DiceFlags F64 := ⟨some (some ovBox), 2, 2, 1, 1, [ascii "a.stl"]⟩

def ovLayout (n : Int) : Layout F64 := match layout ovBox (boxScale ovBox) 2 n 1 1 with
  | .ok L => L
  | _ => ⟨ofInt 0, ofInt 0, 0, 0, 0, 0, 0, 0, ofInt 0⟩

theorem ov_general : GeneralPosition 3 (gridPart ovBox (boxScale ovBox) 2 ⟨2, 2, 2⟩ ⟨0, 0, 0⟩) (exactMesh ovMesh) where
  lo := by
    refine le_trans (zpow_le_zpow_right₀ (by norm_num) (by norm_num : (-899 : Int) ≤ 0)) ?_
    rw [zpow_zero]; decide +kernel
  hi := by
    refine le_trans ?_ (zpow_le_zpow_right₀ (by norm_num) (by norm_num : (3 : Int) ≤ 899))
    decide +kernel
  nz := by decide
  corner := by decide +kernel
  top := by decide +kernel
  points := by decide +kernel
  edges := by
    have h : ∀ p ∈ ovMesh.Triangles, checkEdge 3 (gridPart ovBox (boxScale ovBox) 2 ⟨2, 2, 2⟩ ⟨0, 0, 0⟩)
          ((exactMesh ovMesh).heap p).V1.Position ((exactMesh ovMesh).heap p).V2.Position = true ∧
        checkEdge 3 (gridPart ovBox (boxScale ovBox) 2 ⟨2, 2, 2⟩ ⟨0, 0, 0⟩)
          ((exactMesh ovMesh).heap p).V2.Position ((exactMesh ovMesh).heap p).V3.Position = true ∧
        checkEdge 3 (gridPart ovBox (boxScale ovBox) 2 ⟨2, 2, 2⟩ ⟨0, 0, 0⟩)
          ((exactMesh ovMesh).heap p).V3.Position ((exactMesh ovMesh).heap p).V1.Position = true := by decide +kernel
    intro p hp
    obtain ⟨a, c, d⟩ := h p hp
    exact ⟨checkEdge_ok a, checkEdge_ok c, checkEdge_ok d⟩
  normals := by decide +kernel

/-- This job, with its run, its files, and possible orders for merge-binvox. -/
structure OvRun (load : Bytes → Option (Mesh F64)) (whole : Bytes → BinVOX F64) (out : Bytes) (fs' : FS) : Prop where
  job : GoodJob64 load (fun _ => ovBox) ovFlags exDir (ascii "a.stl") [] (fun _ => ovMesh) (ovLayout 2) (ovLayout 1) 3 whole
  run : DiceCmd load (fun _ => ovBox) (fun _ _ => ⟨true, [], true⟩) ovFlags exDir out fs' .done
  lower : Vox (whole (ascii "a.stl")) ⟨0, 0, 0⟩
  upper : Vox (whole (ascii "a.stl")) ⟨1, 0, 0⟩
  found : Glob fs'.get (jobName (ascii "a") 2 2 1 1) (ascii ".binvox")
    [tileBin ovFlags (ascii "a.stl") ⟨0, 0, 0⟩, tileBin ovFlags (ascii "a.stl") ⟨1, 0, 0⟩]

theorem ov_dims : ((ovLayout 2).dimX = 1 ∧ (ovLayout 2).dimY = 2 ∧ (ovLayout 2).dimZ = 2) ∧
    (ovLayout 1).dimX = 2 ∧ (ovLayout 1).dimY = 2 ∧ (ovLayout 1).dimZ = 2 := by decide +kernel

theorem ovRun_exists : ∃ load whole out fs', OvRun load whole out fs' := by
  let load : Bytes → Option (Mesh F64) := fun _ => some ovMesh
  let bbox : Mesh F64 → Box F64 := fun _ => ovBox
  have h2 : layout ovBox (boxScale ovBox) 2 2 1 1 = .ok (ovLayout 2) := by decide +kernel
  have h1 : layout ovBox (boxScale ovBox) 2 1 1 1 = .ok (ovLayout 1) := by decide +kernel
  obtain ⟨d2, d1⟩ := ov_dims
  have nz' : ¬ zeroDim (tileModel (ovLayout 1) ovBox ⟨0, 0, 0⟩) := by
    unfold zeroDim
    show ¬ ((ovLayout 1).dimX = 0 ∨ (ovLayout 1).dimY = 0 ∨ (ovLayout 1).dimZ = 0)
    omega
  obtain ⟨w, hw⟩ : ∃ w, VoxelizeRun (tileModel (ovLayout 1) ovBox ⟨0, 0, 0⟩) ovMesh (.ok w) := by
    obtain ⟨⟨o, ho⟩, -, -, -⟩ := voxelize_defined (tileModel (ovLayout 1) ovBox ⟨0, 0, 0⟩) ovMesh
    obtain ⟨c, hc, -⟩ := voxelize_exact _ _ nz' _ ho
    exact ⟨c, hc ▸ ho⟩
  have files : JobFiles load bbox ovFlags exDir (ascii "a.stl") [] (fun _ => ovMesh) (ovLayout 2) := by
    refine ⟨rfl, by decide, ?_, by decide, by decide, ?_, h2, ?_, ?_, ?_⟩
    · unfold Plain
      decide
    · intro a ha
      have : a = ascii "a.stl" := by simpa [ovFlags] using ha
      subst this
      rfl
    · rw [d2.1, d2.2.1, d2.2.2]
      decide
    · intro a _ t _
      exact exDir_get (fun e => tileStl_ne_bin (ascii "a") _ e.symm) (fun e => tileStl_ne_bin (ascii "b") _ e.symm)
    · intro mid
      refine exDir_get ?_ ?_ <;>
      · intro e
        have := congrArg (fun l => l[1]?) e
        exact absurd (show some (45 : UInt8) = some 46 from this) (by decide)
  have job : GoodJob64 load bbox ovFlags exDir (ascii "a.stl") [] (fun _ => ovMesh) (ovLayout 2) (ovLayout 1) 3 (fun _ => w) := by
    refine ⟨files, h1, ?_, by decide, ?_, ?_, ?_, ?_, ?_, ?_, ?_, fun _ _ => hw⟩
    · show 0 < (boxScale ovBox).val
      decide +kernel
    · rw [d1.1]; norm_num
    · rw [d1.2.1]; norm_num
    · rw [d1.2.2]; norm_num
    · rw [d1.1]; show |ovBox.Min.X.val| + ((2 : Int) : ℚ) / ((2 : Int) / (boxScale ovBox).val) ≤ 3; decide +kernel
    · rw [d1.2.1]; show |ovBox.Min.Y.val| + ((2 : Int) : ℚ) / ((2 : Int) / (boxScale ovBox).val) ≤ 3; decide +kernel
    · rw [d1.2.2]; show |ovBox.Min.Z.val| + ((2 : Int) : ℚ) / ((2 : Int) / (boxScale ovBox).val) ≤ 3; decide +kernel
    · intro a ha
      show GeneralPosition 3 (gridPart ovBox (boxScale ovBox) 2 _ _) _
      rw [d1.1, d1.2.1, d1.2.2]
      exact ov_general
  obtain ⟨out, fs', h⟩ := dice_job_succeeds_any exEnv_good files (by nofun) (by decide)
  have ha : ascii "a.stl" ∈ ovFlags.args := by simp [ovFlags]
  have hA : ∀ k : Key, k.Z = 0 → (∃ r ∈ sliceRows (tileModel (ovLayout 1) ovBox ⟨0, 0, 0⟩) ovMesh 0, k ∈ r) → Vox w k := by
    intro k hz hr
    obtain ⟨c, hc, -, -, hh⟩ := voxelize_exact _ _ nz' _ hw
    injection hc with hc
    subst hc
    refine (hh k).mpr ?_
    have hz' : (0 : Int) < (tileModel (ovLayout 1) ovBox ⟨0, 0, 0⟩).NZ := by
      show 0 < (ovLayout 1).dimZ
      omega
    rw [hz]
    exact ⟨le_refl _, hz', ((sliceRows_mem _ _ _ _).mp hr).2⟩
  have x0 : Vox w ⟨0, 0, 0⟩ := hA _ rfl (by decide +kernel)
  have x1 : Vox w ⟨1, 0, 0⟩ := hA _ rfl (by decide +kernel)
  have hex : ∀ t, InDims 2 1 1 t → fs'.get (tileBin ovFlags (ascii "a.stl") t) ≠ none := by
    intro t ht hno
    rcases diceCmd_tiles_f64 exEnv_good job h ht ha with ⟨-, hn⟩ | ⟨b, e, -⟩
    · refine hn ⟨0, 0, 0⟩ ⟨by unfold InDims; rw [d2.1, d2.2.1, d2.2.2]; decide, ?_⟩
      obtain ⟨x, y, z⟩ := t
      unfold InDims at ht
      dsimp only at ht
      have hx : x = 0 ∨ x = 1 := by omega
      have hy : y = 0 := by omega
      have hz : z = 0 := by omega
      unfold inWhole
      dsimp only
      rw [d2.1, d2.2.1, d2.2.2, hy, hz]
      rcases hx with rfl | rfl
      · exact x0
      · exact x1
    · unfold input at e
      rw [hno] at e
      cases e
  refine ⟨load, fun _ => w, out, fs', job, h, x0, x1, by decide, fun n => ?_⟩
  have i0 : InDims 2 1 1 ⟨0, 0, 0⟩ := by unfold InDims; decide
  have i1 : InDims 2 1 1 ⟨1, 0, 0⟩ := by unfold InDims; decide
  constructor
  · intro hn
    have hp : ∀ t, InDims 2 1 1 t → ∃ mid, (47 : UInt8) ∉ mid ∧ tileBin ovFlags (ascii "a.stl") t =
        jobName (ascii "a") 2 2 1 1 ++ mid ++ ascii ".binvox" := by
      intro t ht
      refine ⟨tileSuffix t, suffix_no_slash ?_, ?_⟩
      · unfold InDims at ht; omega
      · rw [tileBin_suffix, List.append_assoc]; rfl
    simp only [List.mem_cons, List.not_mem_nil, or_false] at hn
    rcases hn with rfl | rfl
    · exact ⟨hex _ i0, hp _ i0⟩
    · exact ⟨hex _ i1, hp _ i1⟩
  · rintro ⟨hn, mid, -, e⟩
    obtain ⟨t, ht, rfl⟩ := exDir_own64 exEnv_good files h hn e
    obtain ⟨x, y, z⟩ := t
    unfold InDims at ht
    dsimp only [ovFlags] at ht
    have hx : x = 0 ∨ x = 1 := by omega
    have hy : y = 0 := by omega
    have hz : z = 0 := by omega
    subst hy hz
    rcases hx with rfl | rfl <;> simp

/-- Possible orders for merge-binvox on the two files of this job. -/
def OvSched (d : Disk) (sch : Bytes → AddSched) : Prop :=
  ∀ b, BinVOX.Read (F := F64) (input d (tileBin ovFlags (ascii "a.stl") ⟨0, 0, 0⟩)) wholeRegion = some b →
    (sch (tileBin ovFlags (ascii "a.stl") ⟨0, 0, 0⟩)).Valid b 0 0 0 ∧
    ∀ vs, VShell.New (sch (tileBin ovFlags (ascii "a.stl") ⟨0, 0, 0⟩)) b = some vs →
      GoSchedules d sch vs [tileBin ovFlags (ascii "a.stl") ⟨1, 0, 0⟩]

theorem ovSched_exists (d : Disk) : ∃ sch, OvSched d sch := by
  cases hr : BinVOX.Read (F := F64) (input d (tileBin ovFlags (ascii "a.stl") ⟨0, 0, 0⟩)) wholeRegion with
  | none => exact ⟨fun _ => ⟨[], [], [], 0⟩, fun b hb => by rw [hr] at hb; cases hb⟩
  | some b =>
    obtain ⟨s, hs⟩ := schedule_exists b 0 0 0
    have hne : tileBin ovFlags (ascii "a.stl") ⟨1, 0, 0⟩ ≠ tileBin ovFlags (ascii "a.stl") ⟨0, 0, 0⟩ := by decide
    cases ha : VShell.New s b with
    | none =>
      refine ⟨fun _ => s, fun b' hb => ?_⟩
      rw [hr] at hb
      cases hb
      exact ⟨hs, fun vs h => by rw [ha] at h; cases h⟩
    | some vs1 =>
      obtain ⟨sch, hsch⟩ := goSchedules_exist d [tileBin ovFlags (ascii "a.stl") ⟨1, 0, 0⟩] vs1 (by simp)
      refine ⟨fun m => if m = tileBin ovFlags (ascii "a.stl") ⟨0, 0, 0⟩ then s else sch m, fun b' hb => ?_⟩
      rw [hr] at hb
      cases hb
      dsimp only
      rw [if_pos rfl]
      refine ⟨hs, fun vs h => ?_⟩
      rw [ha] at h
      cases h
      refine goSchedules_congr _ _ ?_ hsch
      intro m hm
      rw [List.mem_singleton] at hm
      subst hm
      rw [if_neg hne]

/-- The resolution of the job lies between 6 and 7, far enough from both. -/
theorem ov_resolution : ((6 : Int) : ℚ) + (1 + 2 : Nat) * ((2 : Int) / (boxScale ovBox).val / 2 ^ 47) ≤ (2 : Int) / (boxScale ovBox).val ∧
    (2 : Int) / (boxScale ovBox).val + (1 + 2 : Nat) * ((2 : Int) / (boxScale ovBox).val / 2 ^ 47) < ((6 : Int) : ℚ) + 1 := by
  decide +kernel

/-- `dice_then_merge_near_f64` on this job: its hypotheses are met. -/
example {load : Bytes → Option (Mesh F64)} {whole : Bytes → BinVOX F64} {out : Bytes} {fs' : FS} (o : OvRun load whole out fs')
    {sch : Bytes → AddSched} (hsch : OvSched fs'.get sch) :=
  dice_then_merge_near_f64 exEnv_good o.job o.run (a := ascii "a.stl") (by simp [ovFlags]) (t0 := ⟨0, 0, 0⟩)
    (by unfold InDims; decide)
    ⟨⟨0, 0, 0⟩, by unfold InDims; rw [ov_dims.1.1, ov_dims.1.2.1, ov_dims.1.2.2]; decide, by
      unfold inWhole
      dsimp only
      rw [ov_dims.1.1, ov_dims.1.2.1, ov_dims.1.2.2]
      exact o.lower⟩
    (ns := [tileBin ovFlags (ascii "a.stl") ⟨1, 0, 0⟩]) (sch := sch) o.found
    (by
      intro n hn
      rw [List.mem_singleton] at hn
      exact ⟨⟨1, 0, 0⟩, by unfold InDims; decide, hn⟩)
    (by
      intro t ht _
      unfold InDims at ht
      unfold KLe
      exact ⟨ht.1, ht.2.2.1, ht.2.2.2.2.1⟩)
    (V := (2 : Int) / (boxScale ovBox).val) rfl
    (by
      refine le_trans (zpow_le_zpow_right₀ (by norm_num) (by norm_num : (-397 : Int) ≤ 0)) ?_
      rw [zpow_zero]; decide +kernel)
    (by
      refine le_trans ?_ (zpow_le_zpow_right₀ (by norm_num) (by norm_num : (3 : Int) ≤ 397))
      decide +kernel)
    (by decide +kernel) (by decide)
    (by
      rw [ov_dims.1.1, ov_dims.1.2.1, ov_dims.1.2.2]
      decide)
    (k0 := 6) (by norm_num) ov_resolution.1 ov_resolution.2 hsch

/-- There is such a run, with such orders. -/
example : ∃ load whole out fs' sch, OvRun load whole out fs' ∧ OvSched fs'.get sch := by
  obtain ⟨load, whole, out, fs', o⟩ := ovRun_exists
  obtain ⟨sch, hs⟩ := ovSched_exists fs'.get
  exact ⟨load, whole, out, fs', sch, o, hs⟩

/-- **C120 (where it fails).** `stldice -mbb 0.1,0,0,0.4,0.3,0.3 -dim 2 -nx 2 -ny 1 -nz 1` on a tetrahedron, and then merge-binvox: the
    hypotheses of `dice_then_merge_near_f64` are met, the undiced model has voxels in both tiles, and merge-binvox succeeds but puts the
    second tile on top of the first one: no voxel of the shell has X other than 0. -/
theorem dice_then_merge_overlays_f64 :
    ∃ (load : Bytes → Option (Mesh F64)) (whole : Bytes → BinVOX F64) (out : Bytes) (fs' : FS),
      GoodJob64 load (fun _ => ovBox) ovFlags exDir (ascii "a.stl") [] (fun _ => ovMesh) (ovLayout 2) (ovLayout 1) 3 whole ∧
      DiceCmd load (fun _ => ovBox) (fun _ _ => ⟨true, [], true⟩) ovFlags exDir out fs' .done ∧
      Vox (whole (ascii "a.stl")) ⟨0, 0, 0⟩ ∧ Vox (whole (ascii "a.stl")) ⟨1, 0, 0⟩ ∧
      Glob fs'.get (jobName (ascii "a") 2 2 1 1) (ascii ".binvox")
        [tileBin ovFlags (ascii "a.stl") ⟨0, 0, 0⟩, tileBin ovFlags (ascii "a.stl") ⟨1, 0, 0⟩] ∧
      (∃ sch, OvSched fs'.get sch) ∧
      ∀ sch : Bytes → AddSched, OvSched fs'.get sch →
        ∃ vs : VShell F64, VShell.Merge ([tileBin ovFlags (ascii "a.stl") ⟨0, 0, 0⟩, tileBin ovFlags (ascii "a.stl") ⟨1, 0, 0⟩].map
          fun f => (sch f, BinVOX.Read (F := F64) (input fs'.get f) wholeRegion)) = some (some vs) ∧
          vs.Voxels ≠ [] ∧ ∀ w ∈ vs.Voxels, w.X = 0 := by
  obtain ⟨load, whole, out, fs', o⟩ := ovRun_exists
  refine ⟨load, whole, out, fs', o.job, o.run, o.lower, o.upper, o.found, ovSched_exists _, ?_⟩
  intro sch hsch
  obtain ⟨d2, -⟩ := ov_dims
  have ha : ascii "a.stl" ∈ ovFlags.args := by simp [ovFlags]
  have tile : ∀ t, InDims 2 1 1 t → Vox (whole (ascii "a.stl")) t →
      ∃ b, BinVOX.Read (F := F64) (input fs'.get (tileBin ovFlags (ascii "a.stl") t)) wholeRegion = some b ∧
        InPlace (ovLayout 2) ovBox t b ∧ b.white ≠ [] ∧ ∀ k, Occ b k → InDims 1 2 2 k := by
    intro t ht hv
    rcases diceCmd_tiles_f64 exEnv_good o.job o.run ht ha with ⟨-, hn⟩ | ⟨b, e, hp, hb⟩
    · refine absurd ⟨by unfold InDims; rw [d2.1, d2.2.1, d2.2.2]; decide, ?_⟩ (hn ⟨0, 0, 0⟩)
      obtain ⟨x, y, z⟩ := t
      unfold InDims at ht
      dsimp only at ht
      have hy : y = 0 := by omega
      have hz : z = 0 := by omega
      subst hy hz
      unfold inWhole
      dsimp only
      rw [d2.1, d2.2.1, d2.2.2]
      unfold Key.shift
      simpa using hv
    · refine ⟨b, e, hp, ?_, ?_⟩
      · intro he
        have : Vox b ⟨0, 0, 0⟩ := by
          refine (hb _).mpr ⟨by unfold InDims; rw [d2.1, d2.2.1, d2.2.2]; decide, ?_⟩
          obtain ⟨x, y, z⟩ := t
          unfold InDims at ht
          dsimp only at ht
          have hy : y = 0 := by omega
          have hz : z = 0 := by omega
          subst hy hz
          unfold inWhole
          dsimp only
          rw [d2.1, d2.2.1, d2.2.2]
          unfold Key.shift
          simpa using hv
        unfold Vox at this
        rw [he] at this
        cases this
      · intro k hk
        have hc : b.color = [] := hp.white
        have : Vox b k := by
          rcases hk with h | h
          · exact h
          · rw [hc] at h; cases h
        have := ((hb k).mp this).1
        rwa [d2.1, d2.2.1, d2.2.2] at this
  obtain ⟨b0, e0, p0, w0, q0⟩ := tile ⟨0, 0, 0⟩ (by unfold InDims; decide) o.lower
  obtain ⟨b1, e1, p1, w1, q1⟩ := tile ⟨1, 0, 0⟩ (by unfold InDims; decide) o.upper
  obtain ⟨hv0, hg⟩ := hsch b0 e0
  obtain ⟨vs, en, hsh, t1, t2, t3⟩ := new_shell_exact _ b0 w0 hv0
  have hb := BuiltAny.new _ b0 vs w0 hv0 en
  obtain ⟨hkeep, hne⟩ := history_keeps_shell hb
  have hres : vs.VoxelsPerMM = (BinVOX.vpmmOf 1 2 2 (ovLayout 2).subScale : F64) := by
    rw [new_inside w0 hv0 ?_ en]
    · unfold BinVOX.VoxelsPerMM
      rw [p0.nx, p0.ny, p0.nz, p0.scale, d2.1, d2.2.1, d2.2.2]
    · intro k hk
      have := q0 k hk
      unfold InDims at this
      rw [p0.nx, p0.ny, p0.nz, d2.1, d2.2.1, d2.2.2]
      omega
  have hres1 : b1.VoxelsPerMM = (BinVOX.vpmmOf 1 2 2 (ovLayout 2).subScale : F64) := by
    unfold BinVOX.VoxelsPerMM
    rw [p1.nx, p1.ny, p1.nz, p1.scale, d2.1, d2.2.1, d2.2.2]
  have hd : displacement vs b1 = ⟨0, 0, 0⟩ := by
    unfold displacement
    rw [t1, t2, t3, p0.tx, p0.ty, p0.tz, p1.tx, p1.ty, p1.tz, hres]
    decide +kernel
  have hnew : newMove (displacement vs b1) = ⟨0, 0, 0⟩ := by rw [hd]; decide
  have hold : oldMove (displacement vs b1) = ⟨0, 0, 0⟩ := by rw [hd]; decide
  obtain ⟨hv1, -⟩ := hg vs en b1 e1
  obtain ⟨vs', hadd⟩ : ∃ vs', vs.Add (sch (tileBin ovFlags (ascii "a.stl") ⟨1, 0, 0⟩)) b1 = some vs' := by
    rw [Add_eq _ _ _ hne, hres, hres1]
    simp only [ne_eq, not_true, if_false]
    exact ⟨_, rfl⟩
  have hb' := BuiltAny.add _ b1 vs vs' _ hb hv1 hadd
  obtain ⟨k1, k2⟩ := history_keeps_shell hb'
  refine ⟨vs', ?_, k2, ?_⟩
  · unfold VShell.Merge
    simp only [List.map_cons, List.map_nil, e0, e1, List.foldl_cons, List.foldl_nil, VShell.mergeStep, en, Option.map_some, hadd]
  · intro w hw
    have := k1.inside w hw
    rw [hnew, hold] at this
    unfold KUnion Moved at this
    simp only [sub_zero] at this
    have hi : InDims 1 2 2 w.key := by
      rcases this with h | h
      · exact q0 _ h
      · exact q1 _ h
    unfold InDims VShVoxel.key at hi
    dsimp only at hi
    omega

end Cmd
end StlDice
