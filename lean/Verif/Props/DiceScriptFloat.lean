import Verif.Props.DiceThenScript
import Verif.Props.DiceRuns
import Verif.Props.DiceFloat
import Verif.Props.ToMeshFloat
import Verif.Props.MergeFloat

/-! # C95: stldice followed by its script in float64 -/

namespace StlDice
namespace Spec
open BinVOX F64

/-- A job in float64 as it is meant: the files are there (`JobFiles`), the grid of the undiced job (layout `L1`) has at most
    `2^50` voxels along an axis, box and grid lie within `R` of the origin, and the meshes are in general position to the grid;
    `whole a` is the mesh of `a` voxelized without dicing. -/
structure GoodJob64 (load : Bytes → Option (Mesh F64)) (bbox : Mesh F64 → Box F64) (fl : Cmd.DiceFlags F64) (fs : FS) (base : Bytes)
    (cuts : List Bytes) (mesh : Bytes → Mesh F64) (L L1 : Layout F64) (R : ℚ) (whole : Bytes → BinVOX F64) : Prop where
  files : JobFiles load bbox fl fs base cuts mesh L
  undiced : layout (jobBox bbox fl (mesh base)) (boxScale (jobBox bbox fl (mesh base))) fl.dim 1 1 1 = .ok L1
  scale : 0 < (boxScale (jobBox bbox fl (mesh base))).val
  dim : fl.dim ≤ 2 ^ 53
  sizeX : 0 < L1.dimX ∧ L1.dimX ≤ 2 ^ 50
  sizeY : 0 < L1.dimY ∧ L1.dimY ≤ 2 ^ 50
  sizeZ : 0 < L1.dimZ ∧ L1.dimZ ≤ 2 ^ 50
  insideX : |(jobBox bbox fl (mesh base)).Min.X.val| + (L1.dimX : ℚ) / (fl.dim / (boxScale (jobBox bbox fl (mesh base))).val) ≤ R
  insideY : |(jobBox bbox fl (mesh base)).Min.Y.val| + (L1.dimY : ℚ) / (fl.dim / (boxScale (jobBox bbox fl (mesh base))).val) ≤ R
  insideZ : |(jobBox bbox fl (mesh base)).Min.Z.val| + (L1.dimZ : ℚ) / (fl.dim / (boxScale (jobBox bbox fl (mesh base))).val) ≤ R
  general : ∀ a ∈ fl.args, GeneralPosition R (gridPart (jobBox bbox fl (mesh base)) (boxScale (jobBox bbox fl (mesh base))) fl.dim
    ⟨L1.dimX, L1.dimY, L1.dimZ⟩ ⟨0, 0, 0⟩) (exactMesh (mesh a))
  voxelized : ∀ a ∈ fl.args, VoxelizeRun (tileModel L1 (jobBox bbox fl (mesh base)) ⟨0, 0, 0⟩) (mesh a) (.ok (whole a))

/-- The side of a voxel of the tiles' files. -/
def tileSide (L : Layout F64) (B : Box F64) : ℚ := 1 / (exactModel (tileModel L B ⟨0, 0, 0⟩)).VoxelsPerMM

/-- `ts` is, up to the last few bits of each number, the mesh `ex` of the places `left` of tile `t`; `ts` is closed, `ex` is closed, lies
    on their skin and has their volume. -/
structure TileMesh64 (L : Layout F64) (B : Box F64) (t : Key) (left : Key → Prop) (ts : List (Tri (Vec F64)))
    (ex : List (Tri (Vec ℚ))) : Prop where
  closed : ClosedAfterAxisCuts (exactTris ts)
  close : List.Forall₂ (CloseTri (exactModel (tileModel L B t))) ex ts
  exactClosed : ClosedAfterCuts ex
  skin : ∀ tri ∈ ex, ∃ b, Cmd.InPlace L B t b ∧ (∀ l, Vox b l ↔ left l) ∧ OnSkin (exactModel b) tri
  volume : ∀ ls : List Key, ls.Nodup → (∀ l, l ∈ ls ↔ left l) → volume ex = ls.length * tileSide L B ^ 3

end Spec

namespace Cmd
open Spec BinVOX GoFloat F64

theorem axisCuts_append {a b : List (Tri (Vec ℚ))} (ha : ClosedAfterAxisCuts a) (hb : ClosedAfterAxisCuts b) :
    ClosedAfterAxisCuts (a ++ b) := by
  obtain ⟨c, a1, a2, a3⟩ := ha
  obtain ⟨d, b1, b2, b3⟩ := hb
  have hz : ((a ++ b).flatMap triEdges).zip (c ++ d) = (a.flatMap triEdges).zip c ++ (b.flatMap triEdges).zip d := by
    rw [List.flatMap_append, List.zip_append a1.symm]
  refine ⟨c ++ d, ?_, ?_, ?_⟩
  · rw [List.flatMap_append, List.length_append, List.length_append, a1, b1]
  · rw [hz]
    intro x hx
    rcases List.mem_append.mp hx with h | h
    · exact a2 x h
    · exact b2 x h
  · rw [hz]
    intro u v
    rw [List.flatMap_append, List.count_append, List.count_append, a3, b3]

theorem axisCuts_flatMap {ι : Type} (f : ι → List (Tri (Vec ℚ))) (l : List ι) (h : ∀ i ∈ l, ClosedAfterAxisCuts (f i)) :
    ClosedAfterAxisCuts (l.flatMap f) := by
  induction l with
  | nil => exact axisCuts_of_closed (fun _ _ => rfl)
  | cons a l ih =>
    rw [List.flatMap_cons]
    exact axisCuts_append (h a List.mem_cons_self) (ih fun i hi => h i (List.mem_cons_of_mem _ hi))

/-- The grid of a job in float64 and its tiles. -/
structure GridJob64 (B : Box F64) (dim nx ny nz : Int) (L L1 : Layout F64) (R : ℚ) : Prop where
  layout : layout B (boxScale B) dim nx ny nz = .ok L
  undiced : StlDice.layout B (boxScale B) dim 1 1 1 = .ok L1
  divs : 0 < nx ∧ 0 < ny ∧ 0 < nz
  dim0 : 0 < dim
  dim1 : dim ≤ 2 ^ 53
  scale : 0 < (boxScale B).val
  pos : 0 < L.dimX
  lo : (2 : ℚ) ^ (-899 : Int) ≤ dim / (boxScale B).val
  hi : (dim : ℚ) / (boxScale B).val ≤ 2 ^ (899 : Int)
  sizeX : 0 < L1.dimX ∧ L1.dimX ≤ 2 ^ 50
  sizeY : 0 < L1.dimY ∧ L1.dimY ≤ 2 ^ 50
  sizeZ : 0 < L1.dimZ ∧ L1.dimZ ≤ 2 ^ 50
  insideX : |B.Min.X.val| + (L1.dimX : ℚ) / (dim / (boxScale B).val) ≤ R
  insideY : |B.Min.Y.val| + (L1.dimY : ℚ) / (dim / (boxScale B).val) ≤ R
  insideZ : |B.Min.Z.val| + (L1.dimZ : ℚ) / (dim / (boxScale B).val) ≤ R

section
variable {B : Box F64} {dim nx ny nz : Int} {L L1 : Layout F64} {R : ℚ}

/-- The tiles have at most as many voxels as the whole. -/
theorem GridJob64.dims_le (job : GridJob64 B dim nx ny nz L L1 R) :
    L.dimX ≤ L1.dimX ∧ L.dimY ≤ L1.dimY ∧ L.dimZ ≤ L1.dimZ := by
  obtain ⟨_, _, _, dx0, dy0, dz0, ev, -, ex, ey, ez, fx, fy, fz, -⟩ := layout_ok job.layout
  obtain ⟨_, _, _, _, _, _, ev1, -, ex1, ey1, ez1, fx1, fy1, fz1, -⟩ := layout_ok job.undiced
  rw [ev] at ex ey ez
  rw [ev1] at ex1 ey1 ez1
  rw [Int.tdiv_one] at fx1 fy1 fz1
  rw [ex, ← ex1, ← fx1] at fx
  rw [ey, ← ey1, ← fy1] at fy
  rw [ez, ← ez1, ← fz1] at fz
  obtain ⟨h1, h2, h3⟩ := job.divs
  have key : ∀ {M n : Int}, 0 < M → 0 < n → M.tdiv n ≤ M := by
    intro M n hM hn
    rw [Int.tdiv_eq_ediv_of_nonneg hM.le]
    exact Int.ediv_le_self _ hM.le
  rw [fx, fy, fz]
  exact ⟨key job.sizeX.1 h1, key job.sizeY.1 h2, key job.sizeZ.1 h3⟩

/-- The resolution of the tiles is ordinary. -/
theorem GridJob64.ordinary (job : GridJob64 B dim nx ny nz L L1 R) (t : Key) :
    Ordinary (tileModel L B t) := by
  have lo := job.lo
  have hi := job.hi
  have hd0 := job.dim0
  have V0 : 0 < (dim : ℚ) / (boxScale B).val := div_pos (by exact_mod_cast hd0) job.scale
  obtain ⟨l1, l2, l3⟩ := job.dims_le
  have px := job.pos
  have hD : dimOf L.dimX L.dimY L.dimZ ≤ 2 ^ 50 := dimOf_le_of (by have := job.sizeX; omega) (by have := job.sizeY; omega) (by have := job.sizeZ; omega)
  have D1 : 1 ≤ dimOf L.dimX L.dimY L.dimZ := dimOf_pos px
  have n := tile_near (t := ⟨0, 0, 0⟩) (R := |B.Min.X.val| + |B.Min.Y.val| + |B.Min.Z.val|) job.layout
    (by rw [abs_of_pos hd0]; exact job.dim1) lo hi px (by omega) (by simp)
    (by
      simp only [Int.zero_mul, Int.cast_zero, zero_div, add_zero]
      have := abs_nonneg B.Min.Y.val
      have := abs_nonneg B.Min.Z.val
      linarith)
    (by
      simp only [Int.zero_mul, Int.cast_zero, zero_div, add_zero]
      have := abs_nonneg B.Min.X.val
      have := abs_nonneg B.Min.Z.val
      linarith)
    (by
      simp only [Int.zero_mul, Int.cast_zero, zero_div, add_zero]
      have := abs_nonneg B.Min.Y.val
      have := abs_nonneg B.Min.X.val
      linarith)
  have hdimB : |(tileModel L B t).Dim| ≤ 2 ^ 53 := by
    show |dimOf L.dimX L.dimY L.dimZ| ≤ 2 ^ 53
    rw [abs_of_nonneg (by omega)]
    omega
  have nv := n.pitch
  rw [gridPart_vpmm V0 px] at nv
  have ev : (tileModel L B ⟨0, 0, 0⟩).VoxelsPerMM.val = rnd (exactModel (tileModel L B t)).VoxelsPerMM :=
    vpmm_val (b := tileModel L B t) hdimB
  rw [ev] at nv
  generalize (dim : ℚ) / (boxScale B).val = V at *
  obtain ⟨n1, n2⟩ := abs_le.mp nv
  refine ⟨?_, ?_, hdimB⟩
  · by_contra hc
    push Not at hc
    have := rnd_mono hc.le
    rw [rnd_of_mem (binary64_pow (by norm_num))] at this
    have e : (2 : ℚ) ^ (-899 : Int) = 2 * 2 ^ (-900 : Int) := by
      rw [← zpow_one_add₀ (by norm_num)]; norm_num
    have p : (0 : ℚ) < 2 ^ (-900 : Int) := by positivity
    rw [e] at lo
    generalize (2 : ℚ) ^ (-900 : Int) = ε at *
    have : V / 2 ^ 50 ≤ V / 4 := div_le_div_of_nonneg_left V0.le (by norm_num) (by norm_num)
    linarith
  · by_contra hc
    push Not at hc
    have := rnd_mono hc.le
    rw [rnd_of_mem (binary64_pow (by norm_num))] at this
    have e : (2 : ℚ) ^ (900 : Int) = 2 * 2 ^ (899 : Int) := by
      rw [← zpow_one_add₀ (by norm_num)]; norm_num
    have p : (0 : ℚ) < 2 ^ (899 : Int) := by positivity
    rw [e] at this
    generalize (2 : ℚ) ^ (899 : Int) = ε at *
    have : V / 2 ^ 50 ≤ V / 4 := div_le_div_of_nonneg_left V0.le (by norm_num) (by norm_num)
    linarith

theorem GridJob64.near (job : GridJob64 B dim nx ny nz L L1 R) {t : Key}
    (ht : InDims nx ny nz t) :
    NearModel R (gridPart B (boxScale B) dim ⟨L.dimX, L.dimY, L.dimZ⟩
      ⟨t.X * L.dimX, t.Y * L.dimY, t.Z * L.dimZ⟩) (tileModel L B t) := by
  have lo := job.lo
  have hi := job.hi
  have hd0 := job.dim0
  have V0 : 0 < (dim : ℚ) / (boxScale B).val := div_pos (by exact_mod_cast hd0) job.scale
  obtain ⟨l1, l2, l3⟩ := job.dims_le
  have px := job.pos
  have hD : dimOf L.dimX L.dimY L.dimZ ≤ 2 ^ 50 := dimOf_le_of (by have := job.sizeX; omega) (by have := job.sizeY; omega) (by have := job.sizeZ; omega)
  obtain ⟨_, _, _, dx0, dy0, dz0, ev, -, ex, ey, ez, fx, fy, fz, -⟩ := layout_ok job.layout
  obtain ⟨_, _, _, _, _, _, ev1, -, ex1, ey1, ez1, fx1, fy1, fz1, -⟩ := layout_ok job.undiced
  rw [ev] at ex ey ez
  rw [ev1] at ex1 ey1 ez1
  rw [Int.tdiv_one] at fx1 fy1 fz1
  rw [ex, ← ex1, ← fx1] at fx
  rw [ey, ← ey1, ← fy1] at fy
  rw [ez, ← ez1, ← fz1] at fz
  obtain ⟨h1, h2, h3⟩ := job.divs
  have axis : ∀ {M n d i : Int}, 0 < M → 0 < n → d = M.tdiv n → 0 ≤ i → i < n → 0 ≤ i * d ∧ i * d ≤ M := by
    intro M n d i hM hn e h0 h1
    rw [Int.tdiv_eq_ediv_of_nonneg hM.le] at e
    have d0 : 0 ≤ d := by rw [e]; exact Int.ediv_nonneg hM.le hn.le
    refine ⟨Int.mul_nonneg h0 d0, ?_⟩
    have a : n * d ≤ M := by rw [e]; exact Int.mul_ediv_self_le hn.ne'
    have c : i * d ≤ n * d := Int.mul_le_mul_of_nonneg_right (by omega) d0
    omega
  unfold InDims at ht
  obtain ⟨ax, bx⟩ := axis (i := t.X) job.sizeX.1 h1 fx (by omega) (by omega)
  obtain ⟨ay, by'⟩ := axis (i := t.Y) job.sizeY.1 h2 fy (by omega) (by omega)
  obtain ⟨az, bz⟩ := axis (i := t.Z) job.sizeZ.1 h3 fz (by omega) (by omega)
  have part : ∀ {c : ℚ} {k l : Int}, k ≤ l → |c| + (l : ℚ) / (dim / (boxScale B).val) ≤ R →
      |c| + (k : ℚ) / (dim / (boxScale B).val) ≤ R := by
    intro c k l hkl hR
    have : (k : ℚ) / (dim / (boxScale B).val) ≤ (l : ℚ) / (dim / (boxScale B).val) :=
      div_le_div_of_nonneg_right (by exact_mod_cast hkl) V0.le
    linarith
  have sx := job.sizeX
  have sy := job.sizeY
  have sz := job.sizeZ
  exact tile_near job.layout (by rw [abs_of_pos hd0]; exact job.dim1) lo hi px (by omega)
    ⟨⟨ax, by omega⟩, ⟨ay, by omega⟩, ⟨az, by omega⟩⟩ (part bx job.insideX) (part by' job.insideY) (part bz job.insideZ)

/-- The mesh of a tile in float64. -/
theorem tileMesh64_cubes {B : Box F64} {lib : GL F64}
    (hlib : ∀ ks : List Key, (∀ k ∈ ks, InDims L.dimX L.dimY L.dimZ k) → VoxelMesher lib.voxelMesh ks) {t : Key} {W : Key → Prop}
    (ho : Ordinary (tileModel L B t)) (hW : ∀ l, W l → InDims L.dimX L.dimY L.dimZ l) {b : BinVOX F64} {tris : List (Tri (Vec F64))}
    (hp : InPlace L B t b) (hv : ∀ l, Vox b l ↔ W l) (ht : ToMeshRun lib b tris) :
    ∃ ex, TileMesh64 L B t W tris ex := by
  have hv0 : (exactModel b).VoxelsPerMM = (exactModel (tileModel L B t)).VoxelsPerMM := by
    unfold BinVOX.VoxelsPerMM exactModel
    dsimp only
    rw [hp.nx, hp.ny, hp.nz, hp.scale]
    rfl
  have hob : Ordinary b := by
    unfold Ordinary at ho ⊢
    rw [hv0]
    refine ⟨ho.1, ho.2.1, ?_⟩
    have : b.Dim = (tileModel L B t).Dim := by
      unfold BinVOX.Dim
      rw [hp.nx, hp.ny, hp.nz]
      rfl
    rw [this]
    exact ho.2.2
  have hpv : ∀ k, Present b k ↔ W k := fun k => (present_vox hp.white k).trans (hv k)
  obtain ⟨h1, ex, h2, h3, h4, h5⟩ := toMesh_closed_f64 hob ht (by
    intro ks hks
    exact hlib ks fun k hk => hW k ((hpv k).mp ((hks k).mp hk)))
  refine ⟨ex, h1, ?_, h3, fun tri htri => ⟨b, hp, hv, h4 tri htri⟩, ?_⟩
  · refine h2.imp ?_
    intro s u hsu
    unfold CloseTri CloseTo at hsu ⊢
    rw [hv0] at hsu
    have e1 : (exactModel b).TX = (exactModel (tileModel L B t)).TX := congrArg F64.val hp.tx
    have e2 : (exactModel b).TY = (exactModel (tileModel L B t)).TY := congrArg F64.val hp.ty
    have e3 : (exactModel b).TZ = (exactModel (tileModel L B t)).TZ := congrArg F64.val hp.tz
    rw [e1, e2, e3] at hsu
    exact hsu
  · intro ls hnd hls
    rw [h5 ls hnd (fun k => (hls k).trans (hpv k).symm), hv0]
    rfl

theorem tileMesh64_empty {B : Box F64} {t : Key} {W : Key → Prop} (h : ∀ l, ¬ W l) : TileMesh64 L B t W [] [] := by
  refine ⟨axisCuts_of_closed (fun _ _ => rfl), .nil, closedAfterCuts_of_closed (fun _ _ => rfl), fun _ hm => (List.not_mem_nil hm).elim, ?_⟩
  intro ls _ hls
  have : ls = [] := by
    cases ls with
    | nil => rfl
    | cons a l => exact absurd ((hls a).mp (by simp)) (h a)
  subst this
  simp [Spec.volume]

end

section
variable {load : Bytes → Option (Mesh F64)} {bbox : Mesh F64 → Box F64} {fl : DiceFlags F64} {fs : FS} {base : Bytes}
  {cuts : List Bytes} {mesh : Bytes → Mesh F64} {L L1 : Layout F64} {R : ℚ} {whole : Bytes → BinVOX F64}

theorem _root_.StlDice.Spec.GoodJob64.grid (job : GoodJob64 load bbox fl fs base cuts mesh L L1 R whole) :
    GridJob64 (jobBox bbox fl (mesh base)) fl.dim fl.nx fl.ny fl.nz L L1 R := by
  have hb : base ∈ fl.args := by rw [job.files.args]; simp
  have hg := job.general base hb
  have lo := hg.lo
  have hi := hg.hi
  have V0 : 0 < (fl.dim : ℚ) / (boxScale (jobBox bbox fl (mesh base))).val := div_pos (by exact_mod_cast job.files.dim) job.scale
  rw [gridPart_vpmm V0 job.sizeX.1] at lo hi
  exact ⟨job.files.layout, job.undiced, job.files.divs, job.files.dim, job.dim, job.scale, job.files.dims.1.1, lo, hi, job.sizeX, job.sizeY,
    job.sizeZ, job.insideX, job.insideY, job.insideZ⟩

/-- The volumes of the tiles' meshes add up. -/
theorem tiles_volume {G : Type} {K : Layout G} {B : Box F64} {whole : Bytes → BinVOX G} {nx ny nz : Int} {m : Key → List (Tri (Vec F64))}
    {ex : Key → List (Tri (Vec ℚ))} (hx : 0 < K.dimX) (hy : 0 < K.dimY) (hz : 0 < K.dimZ)
    (hex : ∀ t, InDims nx ny nz t → TileMesh64 L B t (TileLeft K base cuts whole t) (m t) (ex t)) {ls : List Key} (hn : ls.Nodup)
    (hls : ∀ k, k ∈ ls ↔ InDims (nx * K.dimX) (ny * K.dimY) (nz * K.dimZ) k ∧ Left base cuts whole k) :
    ((tileIndices nx ny nz).map fun t => volume (ex t)).sum = ls.length * tileSide L B ^ 3 := by
  classical
  have hloc : ∀ t l, l ∈ (tileIndices K.dimX K.dimY K.dimZ).filter (fun l => Left base cuts whole (inWhole K t l)) ↔
      TileLeft K base cuts whole t l := by
    intro t l
    rw [List.mem_filter, mem_tileIndices, decide_eq_true_eq]
    rfl
  have hlen := tiles_count hx hy hz (Left base cuts whole)
    (fun t => (tileIndices K.dimX K.dimY K.dimZ).filter (fun l => Left base cuts whole (inWhole K t l)))
    (fun t => (tileIndices_nodup _ _ _).filter _) hloc hn hls
  rw [hlen]
  have hv : (tileIndices nx ny nz).map (fun t => volume (ex t)) = (tileIndices nx ny nz).map (fun t =>
      (((tileIndices K.dimX K.dimY K.dimZ).filter (fun l => Left base cuts whole (inWhole K t l))).length : ℚ) *
        tileSide L B ^ 3) := by
    refine List.map_congr_left ?_
    intro t ht
    exact (hex t ((mem_tileIndices _ _ _ t).mp ht)).volume _ ((tileIndices_nodup _ _ _).filter _) (hloc t)
  rw [hv, List.sum_map_mul_right]
  congr 1
  induction tileIndices nx ny nz with
  | nil => simp
  | cons a l ih =>
    rw [List.map_cons, List.map_cons, List.sum_cons, List.sum_cons, ih]
    push_cast
    rfl

/-- **C95.** stldice and then its script in float64, for a job whose meshes are in general position to the grid and whose files can
    all be read and written: every tile's STL file holds a closed mesh, up to the last few bits an exact mesh of the voxels of
    the tile that are left of the base after the cuts — the voxels of the undiced models —, in the tile's place; a tile without a
    file has nothing left; the exact volumes add up; and the merged file, written iff two tiles have voxel files, has the triangles of
    all the tiles' STL files. -/
theorem dice_then_script_f64 {env : Bytes → Key → FileEnv} (henv : ∀ a t, GoodEnv (env a t)) {fs' : FS} {out : Bytes}
    (job : GoodJob64 load bbox fl fs base cuts mesh L L1 R whole)
    (h : DiceCmd load bbox env fl fs out fs' .done)
    {lib : GL F64} (hlib : ∀ ks : List Key, (∀ k ∈ ks, InDims L.dimX L.dimY L.dimZ k) → VoxelMesher lib.voxelMesh ks)
    {loadTris : Bytes → Option (List (Tri (Vec F64)))} {round : Vec F64 → Vec F64}
    (hload : ∀ ts, (lib.stl ts).length < 84 + 50 * 4294967296 → loadTris (lib.stl ts) = some (ts.map (moveTri round)))
    {workers : Nat} {d' : Disk} (hs : ScriptRun (GoodLine lib loadTris workers) fs'.get (shellWords out) d')
    (hsmall : ∀ t file, d' (tileStl fl t) = some file → file.length < 84 + 50 * 4294967296) :
    ∃ (m : Key → List (Tri (Vec F64))) (ex : Key → List (Tri (Vec ℚ))),
      (∀ t, InDims fl.nx fl.ny fl.nz t →
        (d' (tileStl fl t) = some (lib.stl (m t)) ∨
          d' (tileStl fl t) = none ∧ m t = [] ∧ ∀ l, ¬ TileLeft L base cuts whole t l) ∧
        TileMesh64 L (jobBox bbox fl (mesh base)) t (TileLeft L base cuts whole t) (m t) (ex t) ∧
        NearModel R (gridPart (jobBox bbox fl (mesh base)) (boxScale (jobBox bbox fl (mesh base))) fl.dim ⟨L.dimX, L.dimY, L.dimZ⟩
          ⟨t.X * L.dimX, t.Y * L.dimY, t.Z * L.dimZ⟩) (tileModel L (jobBox bbox fl (mesh base)) t)) ∧
      (∀ ls : List Key, ls.Nodup →
        (∀ k, k ∈ ls ↔ InDims (fl.nx * L.dimX) (fl.ny * L.dimY) (fl.nz * L.dimZ) k ∧ Left base cuts whole k) →
        ((tileIndices fl.nx fl.ny fl.nz).map fun t => volume (ex t)).sum = ls.length * tileSide L (jobBox bbox fl (mesh base)) ^ 3) ∧
      ((∃ t u, t ≠ u ∧ HasTile fl fs' t ∧ HasTile fl fs' u) → ∃ order : List Key, order.Nodup ∧
        (∀ t, t ∈ order ↔ InDims fl.nx fl.ny fl.nz t ∧ d' (tileStl fl t) ≠ none) ∧
        d' (outName fl ++ ascii ".stl") =
          some (if order = [] then [] else lib.stl (order.flatMap fun t => (m t).map (moveTri round)))) ∧
      ((¬ ∃ t u, t ≠ u ∧ HasTile fl fs' t ∧ HasTile fl fs' u) → d' (outName fl ++ ascii ".stl") = none) ∧
      ∀ n, n ≠ outName fl ++ ascii ".stl" → (∀ t, InDims fl.nx fl.ny fl.nz t → n ≠ tileStl fl t) → d' n = fs'.get n := by
  obtain ⟨m, hm, h2, h3, h4⟩ := dice_then_script_any whiteCancels_f64 henv job.files
    (W := fun a t l => Vox (whole a) (inWhole L t l)) (by
      intro a ha t ht vox hvox l hl
      exact dice_f64_same_voxels job.files.layout job.undiced job.files.divs.1 job.files.divs.2.1 job.files.divs.2.2 job.scale
        job.files.dim job.dim job.sizeX job.sizeY job.sizeZ job.insideX job.insideY job.insideZ (job.general a ha) (job.voxelized a ha)
        ((mem_tileIndices _ _ _ t).mpr ht) hvox hl) h hload hs hsmall
  have hex : ∀ t, ∃ ex, InDims fl.nx fl.ny fl.nz t →
      (d' (tileStl fl t) = some (lib.stl (m t)) ∨ d' (tileStl fl t) = none ∧ m t = [] ∧ ∀ l, ¬ TileLeft L base cuts whole t l) ∧
      TileMesh64 L (jobBox bbox fl (mesh base)) t (TileLeft L base cuts whole t) (m t) ex := by
    intro t
    by_cases ht : InDims fl.nx fl.ny fl.nz t
    · rcases hm t ht with ⟨e1, e2, e3⟩ | ⟨e1, b, e2, e3, e4⟩
      · refine ⟨[], fun _ => ⟨Or.inr ⟨e1, e2, e3⟩, ?_⟩⟩
        rw [e2]
        exact tileMesh64_empty e3
      · obtain ⟨ex, hx⟩ := tileMesh64_cubes hlib (W := TileLeft L base cuts whole t) (job.grid.ordinary t) (fun l hl => hl.1) e2 e3 e4
        exact ⟨ex, fun _ => ⟨Or.inl e1, hx⟩⟩
    · exact ⟨[], fun h => absurd h ht⟩
  choose ex hex using hex
  refine ⟨m, ex, fun t ht => ⟨(hex t ht).1, (hex t ht).2, job.grid.near ht⟩, ?_, h2, h3, h4⟩
  intro ls hn hls
  exact tiles_volume job.files.dims.1.1 job.files.dims.2.1.1 job.files.dims.2.2.1 (fun t ht => (hex t ht).2) hn hls

/-- **C95.** The merged file, with the rounding to float32 of the tiles' files: its triangles form a closed mesh too. -/
theorem merged_closed_f32 {lib : GL F64} (hb : ∀ a, lib.bits a = encode32 a.val) (order : List Key) (m : Key → List (Tri (Vec F64)))
    (hc : ∀ t ∈ order, ClosedAfterAxisCuts (exactTris (m t))) (hs : ∀ t ∈ order, Below127 (m t)) :
    ClosedAfterCuts (exactTris (order.flatMap fun t => (m t).map (moveTri (asFloat32 lib.bits f32)))) := by
  refine closedAfterCuts_of_axis ?_
  have e : exactTris (order.flatMap fun t => (m t).map (moveTri (asFloat32 lib.bits f32))) =
      order.flatMap fun t => (exactTris (m t)).map (moveTri (onAxes rnd32 rnd32 rnd32)) := by
    unfold exactTris
    rw [List.map_flatMap]
    refine List.flatMap_congr ?_
    intro t ht
    exact tris_f32 hb (hs t ht)
  rw [e]
  exact axisCuts_flatMap _ _ fun t ht => axisCuts_move rnd32_mono rnd32_mono rnd32_mono (hc t ht)

end

/-! ## An example -/

/-- A flatter tetrahedron within the first one. -/
def tetraLow : Mesh F64 where
  heap i :=
    let a := vtx (1 / 8) (1 / 8) (1 / 16)
    let b := vtx (4 / 5) (1 / 3) (3 / 16)
    let c := vtx (1 / 3) (13 / 16) (5 / 32)
    let d := vtx (5 / 16) (3 / 8) (7 / 16)
    let e : Vec F64 := ⟨ofInt 1, ofInt 0, ofInt 0⟩
    let f : Vec F64 := ⟨ofInt (-1), ofInt 0, ofInt 0⟩
    let g : Vec F64 := ⟨ofInt 0, ofInt 0, ofInt (-1)⟩
    [(⟨a g, c g, b g⟩ : Triangle F64), ⟨a e, b e, d e⟩, ⟨b e, c e, d e⟩].getD i ⟨c f, a f, d f⟩
  Triangles := [0, 1, 2, 3]

theorem tetraLow_general : GeneralPosition 3 (gridPart unitBox (ofInt 1) 4 ⟨4, 4, 4⟩ ⟨0, 0, 0⟩) (exactMesh tetraLow) where
  lo := tetra_general.lo
  hi := tetra_general.hi
  nz := by decide
  corner := by decide +kernel
  top := by decide +kernel
  points := by decide +kernel
  edges := by
    have h : ∀ p ∈ tetraLow.Triangles, checkEdge 3 (gridPart unitBox (ofInt 1) 4 ⟨4, 4, 4⟩ ⟨0, 0, 0⟩)
          ((exactMesh tetraLow).heap p).V1.Position ((exactMesh tetraLow).heap p).V2.Position = true ∧
        checkEdge 3 (gridPart unitBox (ofInt 1) 4 ⟨4, 4, 4⟩ ⟨0, 0, 0⟩)
          ((exactMesh tetraLow).heap p).V2.Position ((exactMesh tetraLow).heap p).V3.Position = true ∧
        checkEdge 3 (gridPart unitBox (ofInt 1) 4 ⟨4, 4, 4⟩ ⟨0, 0, 0⟩)
          ((exactMesh tetraLow).heap p).V3.Position ((exactMesh tetraLow).heap p).V1.Position = true := by decide +kernel
    intro p hp
    obtain ⟨a, c, d⟩ := h p hp
    exact ⟨checkEdge_ok a, checkEdge_ok c, checkEdge_ok d⟩
  normals := by decide +kernel

/-- The flags of `stldice -mbb 0,0,0,1,1,1 -dim 4 -nx 2 -ny 2 -nz 2 a.stl b.stl`. -/
def exFlags64 : DiceFlags F64 := ⟨some (some unitBox), 4, 2, 2, 2, [ascii "a.stl", ascii "b.stl"]⟩

/-- The layout of this job divided into `n` tiles along each axis. -/
def exLayout64 (n : Int) : Layout F64 := match layout unitBox (boxScale unitBox) 4 n n n with
  | .ok L => L
  | _ => ⟨ofInt 0, ofInt 0, 0, 0, 0, 0, 0, 0, ofInt 0⟩

/-- The mesh in each file. -/
def exMesh64 (n : Bytes) : Mesh F64 := if n = ascii "a.stl" then tetra else tetraLow

/-- The hypotheses of C95 are met: a tetrahedron minus a flatter one, in eight tiles.  There is such a job, stldice has a successful
    run and its script has one; the mesher is `faceMesh64`, the files hold float32 numbers. -/
theorem exJob64_runs (parseF : Bytes → F64) :
    ∃ (load : Bytes → Option (Mesh F64)) (whole : Bytes → BinVOX F64) (out : Bytes) (fs' : FS) (d' : Disk)
      (loadTris : Bytes → Option (List (Tri (Vec F64)))) (lib : GL F64),
      GoodJob64 load (fun _ => unitBox) exFlags64 exDir (ascii "a.stl") [ascii "b.stl"] exMesh64 (exLayout64 2) (exLayout64 1) 3 whole ∧
      DiceCmd load (fun _ => unitBox) (fun _ _ => ⟨true, [], true⟩) exFlags64 exDir out fs' .done ∧
      (∀ ks : List Key, (∀ k ∈ ks, InDims (exLayout64 2).dimX (exLayout64 2).dimY (exLayout64 2).dimZ k) → VoxelMesher lib.voxelMesh ks) ∧
      (∀ a, lib.bits a = encode32 a.val) ∧
      (∀ ts, (lib.stl ts).length < 84 + 50 * 4294967296 → loadTris (lib.stl ts) = some (ts.map (moveTri (asFloat32 lib.bits f32)))) ∧
      ScriptRun (GoodLine lib loadTris 3) fs'.get (shellWords out) d' ∧
      (∀ t file, d' (tileStl exFlags64 t) = some file → file.length < 84 + 50 * 4294967296) ∧
      InDims 4 4 4 ⟨1, 1, 2⟩ ∧ Left (ascii "a.stl") [ascii "b.stl"] whole ⟨1, 1, 2⟩ := by
  let load : Bytes → Option (Mesh F64) := fun c => some (if c = [1] then tetra else tetraLow)
  let bbox : Mesh F64 → Box F64 := fun _ => unitBox
  let lib : GL F64 := ⟨fun a => encode32 a.val, fun t => t.V1, faceMesh64⟩
  let loadTris : Bytes → Option (List (Tri (Vec F64))) := fun f =>
    match StlText.stlToMesh f32 parseF f with
    | .ok ts => some ts
    | _ => none
  have hbs : boxScale unitBox = ofInt 1 := by decide +kernel
  have h2 : layout unitBox (boxScale unitBox) 4 2 2 2 = .ok (exLayout64 2) := by decide +kernel
  have h1 : layout unitBox (boxScale unitBox) 4 1 1 1 = .ok (exLayout64 1) := by decide +kernel
  have d2 : (exLayout64 2).dimX = 2 ∧ (exLayout64 2).dimY = 2 ∧ (exLayout64 2).dimZ = 2 := by decide +kernel
  have d1 : (exLayout64 1).dimX = 4 ∧ (exLayout64 1).dimY = 4 ∧ (exLayout64 1).dimZ = 4 := by decide +kernel
  have nz' : ¬ zeroDim (tileModel (exLayout64 1) unitBox ⟨0, 0, 0⟩) := by
    unfold zeroDim
    show ¬ ((exLayout64 1).dimX = 0 ∨ (exLayout64 1).dimY = 0 ∨ (exLayout64 1).dimZ = 0)
    omega
  have hwhole : ∀ a, ∃ w, VoxelizeRun (tileModel (exLayout64 1) unitBox ⟨0, 0, 0⟩) (exMesh64 a) (.ok w) := by
    intro a
    obtain ⟨⟨o, ho⟩, -, -, -⟩ := voxelize_defined (tileModel (exLayout64 1) unitBox ⟨0, 0, 0⟩) (exMesh64 a)
    obtain ⟨c, hc, -⟩ := voxelize_exact _ _ nz' _ ho
    exact ⟨c, hc ▸ ho⟩
  choose whole hw using hwhole
  have files : JobFiles load bbox exFlags64 exDir (ascii "a.stl") [ascii "b.stl"] exMesh64 (exLayout64 2) := by
    refine ⟨rfl, by decide, ?_, by decide, by decide, ?_, h2, ?_, ?_, ?_⟩
    · unfold Plain
      decide
    · intro a ha
      have : a = ascii "a.stl" ∨ a = ascii "b.stl" := by simpa [exFlags64] using ha
      rcases this with rfl | rfl <;> rfl
    · rw [d2.1, d2.2.1, d2.2.2]
      decide
    · intro a _ t _
      exact exDir_get (fun e => tileStl_ne_bin (ascii "a") _ e.symm) (fun e => tileStl_ne_bin (ascii "b") _ e.symm)
    · intro mid
      refine exDir_get ?_ ?_ <;>
      · intro e
        have := congrArg List.head? e
        revert this
        show (outName exFlags64 ++ mid ++ ascii ".stl").head? = _ → _
        have h0 : ∃ r, outName exFlags64 = 111 :: r := ⟨_, rfl⟩
        obtain ⟨r, hr⟩ := h0
        rw [hr]
        simp
        decide
  have job : GoodJob64 load bbox exFlags64 exDir (ascii "a.stl") [ascii "b.stl"] exMesh64 (exLayout64 2) (exLayout64 1) 3 whole := by
    refine ⟨files, h1, ?_, by decide, ?_, ?_, ?_, ?_, ?_, ?_, ?_, fun a _ => hw a⟩
    · show 0 < (boxScale unitBox).val
      decide +kernel
    · rw [d1.1]; norm_num
    · rw [d1.2.1]; norm_num
    · rw [d1.2.2]; norm_num
    · rw [d1.1]; show |unitBox.Min.X.val| + ((4 : Int) : ℚ) / ((4 : Int) / (boxScale unitBox).val) ≤ 3; decide +kernel
    · rw [d1.2.1]; show |unitBox.Min.Y.val| + ((4 : Int) : ℚ) / ((4 : Int) / (boxScale unitBox).val) ≤ 3; decide +kernel
    · rw [d1.2.2]; show |unitBox.Min.Z.val| + ((4 : Int) : ℚ) / ((4 : Int) / (boxScale unitBox).val) ≤ 3; decide +kernel
    · intro a ha
      show GeneralPosition 3 (gridPart unitBox (boxScale unitBox) 4 _ _) _
      rw [d1.1, d1.2.1, d1.2.2, hbs]
      have : a = ascii "a.stl" ∨ a = ascii "b.stl" := by simpa [exFlags64] using ha
      rcases this with rfl | rfl
      · exact tetra_general
      · exact tetraLow_general
  have henv : ∀ (a : Bytes) (t : Key), GoodEnv ((fun _ _ => ⟨true, [], true⟩ : Bytes → Key → FileEnv) a t) :=
    fun _ _ => ⟨rfl, rfl, fun _ h => (List.not_mem_nil h).elim⟩
  obtain ⟨out, fs', h⟩ := dice_job_succeeds_any henv files (by nofun) (by decide)
  have hload : ∀ ts, (lib.stl ts).length < 84 + 50 * 4294967296 →
      loadTris (lib.stl ts) = some (ts.map (moveTri (asFloat32 lib.bits f32))) := by
    intro ts hl
    show (match StlText.stlToMesh f32 parseF (lib.stl ts) with
      | .ok ts => some ts
      | _ => none) = _
    rw [stl_parses lib ts hl]
  obtain ⟨d', g1, g2⟩ := dice_script_runs_any whiteCancels_f64 (lib := lib) (loadTris := loadTris) (workers := 3) henv files h (by
      intro ks hks
      rw [d2.1, d2.2.1, d2.2.2] at hks
      have hl := faceMesh_length ks
      have hsub : ks.dedup.length ≤ (tileIndices 2 2 2).length := by
        refine (List.subperm_of_subset ks.nodup_dedup ?_).length_le
        intro k hk
        rw [mem_tileIndices]
        exact hks k (List.mem_dedup.mp hk)
      have h8 : (tileIndices 2 2 2).length = 8 := by decide
      show (faceMesh64 ks).length < 4294967296
      unfold faceMesh64
      rw [List.length_map]
      omega) (by
      intro ts hl
      rw [hload ts hl]
      rfl) (by decide)
  refine ⟨load, whole, out, fs', d', loadTris, lib, job, h, ?_, fun _ => rfl, hload, g1, g2, by unfold InDims; decide, ?_⟩
  · intro ks hks
    rw [d2.1, d2.2.1, d2.2.2] at hks
    refine faceMesh64_mesher ?_
    intro k hk
    have := hks k hk
    unfold InDims at this
    unfold Marching.CellSmall
    norm_num
    refine ⟨?_, ?_, ?_⟩ <;> rw [abs_le] <;> omega
  · have hA : ∀ m : Mesh F64, ∀ w, VoxelizeRun (tileModel (exLayout64 1) unitBox ⟨0, 0, 0⟩) m (.ok w) →
        (Vox w ⟨1, 1, 2⟩ ↔ ∃ r ∈ sliceRows (tileModel (exLayout64 1) unitBox ⟨0, 0, 0⟩) m 2, (⟨1, 1, 2⟩ : Key) ∈ r) := by
      intro m w hw
      obtain ⟨c, hc, -, -, hh⟩ := voxelize_exact _ _ nz' _ hw
      injection hc with hc
      subst hc
      refine (hh ⟨1, 1, 2⟩).trans ?_
      rw [sliceRows_mem]
      have hz : (2 : Int) < (tileModel (exLayout64 1) unitBox ⟨0, 0, 0⟩).NZ := by
        show 2 < (exLayout64 1).dimZ
        omega
      exact ⟨fun h => ⟨rfl, h.2.2⟩, fun h => ⟨by norm_num, hz, h.2⟩⟩
    have a1 : ∃ r ∈ sliceRows (tileModel (exLayout64 1) unitBox ⟨0, 0, 0⟩) tetra 2, (⟨1, 1, 2⟩ : Key) ∈ r := by decide +kernel
    have a2 : ¬ ∃ r ∈ sliceRows (tileModel (exLayout64 1) unitBox ⟨0, 0, 0⟩) tetraLow 2, (⟨1, 1, 2⟩ : Key) ∈ r := by decide +kernel
    refine ⟨(hA tetra _ (hw (ascii "a.stl"))).mpr a1, ?_⟩
    intro c hc
    rw [List.mem_singleton] at hc
    subst hc
    exact fun h => a2 ((hA tetraLow _ (hw (ascii "b.stl"))).mp h)

/-- `dice_then_script_f64` and `merged_closed_f32` on this job: the meshes of the tiles, with corners rounded to float32, together are closed. -/
example (parseF : Bytes → F64) : ∃ (load : Bytes → Option (Mesh F64)) (whole : Bytes → BinVOX F64) (out : Bytes) (fs' : FS) (d' : Disk)
      (loadTris : Bytes → Option (List (Tri (Vec F64)))) (lib : GL F64) (m : Key → List (Tri (Vec F64))) (ex : Key → List (Tri (Vec ℚ))),
    DiceCmd load (fun _ => unitBox) (fun _ _ => ⟨true, [], true⟩) exFlags64 exDir out fs' .done ∧
    ScriptRun (GoodLine lib loadTris 3) fs'.get (shellWords out) d' ∧
    (∀ t, InDims 2 2 2 t → TileMesh64 (exLayout64 2) unitBox t (TileLeft (exLayout64 2) (ascii "a.stl") [ascii "b.stl"] whole t) (m t) (ex t)) := by
  obtain ⟨load, whole, out, fs', d', loadTris, lib, job, h, hlib, hbits, hload, hs, hsmall, -⟩ := exJob64_runs parseF
  obtain ⟨m, ex, hm, -⟩ := dice_then_script_f64 exEnv_good job h hlib hload hs hsmall
  exact ⟨load, whole, out, fs', d', loadTris, lib, m, ex, h, hs, fun t ht => (hm t ht).2.1⟩

/-- `merged_closed_f32` for two tiles with the mesh of a cube and the empty mesh. -/
example (lib : GL F64) (hb : ∀ a, lib.bits a = encode32 a.val) :=
  merged_closed_f32 hb [⟨0, 0, 0⟩, ⟨1, 0, 0⟩] (fun t => if t.X = 0 then faceMesh64 [⟨0, 0, 0⟩] else []) (by
    intro t ht
    have : t = ⟨0, 0, 0⟩ ∨ t = ⟨1, 0, 0⟩ := by simpa using ht
    rcases this with rfl | rfl
    · exact axisCuts_of_closed ((closed_iff_perm _).mpr (by decide +kernel))
    · exact axisCuts_of_closed (by intro u v; rfl)) (by
    intro t ht
    have : t = ⟨0, 0, 0⟩ ∨ t = ⟨1, 0, 0⟩ := by simpa using ht
    intro u hu
    have h1 : ∀ u ∈ faceMesh64 [⟨0, 0, 0⟩], ∀ p ∈ [u.V1, u.V2, u.V3], |p.X.val| < 2 ^ 127 ∧ |p.Y.val| < 2 ^ 127 ∧ |p.Z.val| < 2 ^ 127 := by decide +kernel
    rcases this with rfl | rfl
    · exact fun p hp => h1 u hu p (by simpa using hp)
    · exact (List.not_mem_nil hu).elim)

end Cmd
end StlDice
