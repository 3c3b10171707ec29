import Verif.Spec.IeeeScript
import Verif.Props.IeeeMesh
import Verif.Props.IeeeVoxel
import Verif.Props.IeeeFmt
import Verif.Props.DiceScriptFloat

/-! # C116: stldice followed by its script in full float64 -/

namespace StlDice.Cmd
open StlDice Spec GoFloat BinVOX IeeeL F64

section
variable {S : ℚ} {B : Box F64} {B' : Box Ieee} {b : BinVOX F64} {c : BinVOX Ieee}

theorem boxScale_is (hb : IsBox B B') (hS : S ≤ 2 ^ 100) (hB : PointWithin S B.Min ∧ PointWithin S B.Max) :
    Is (boxScale B) (boxScale B') := by
  have d : ∀ {lo hi : F64} {lo' hi' : Ieee}, Is lo lo' → Is hi hi' → |lo.val| ≤ S → |hi.val| ≤ S → Is (sub hi lo) (sub hi' lo') :=
    fun hl hh a e => (IsP.sub 100 (⟨hh, e.trans hS⟩ : IsP 100 _ _) ⟨hl, a.trans hS⟩ (by norm_num) (by norm_num) (by norm_num)).1
  have dx := d hb.1.1 hb.2.1 hB.1.1 hB.2.1
  have dy := d hb.1.2.1 hb.2.2.1 hB.1.2.1 hB.2.2.1
  have dz := d hb.1.2.2 hb.2.2.2 hB.1.2.2 hB.2.2.2
  have pick : ∀ {x y : F64} {x' y' : Ieee}, Is x x' → Is y y' → Is (if lt x y then y else x) (if lt x' y' then y' else x') := by
    intro x y x' y' hx hy
    rw [lt_is hx hy]
    split <;> assumption
  exact pick (pick dx dy) dz

theorem place1_is {m t x : F64} {m' t' x' : Ieee} (hm : IsP 201 m m') (ht : Is t t') (h2 : |t.val| ≤ 2 ^ 200) (hx : Is x x')
    (hx2 : |x.val| ≤ 2 ^ 60) : Is (place1 m t x) (place1 m' t' x') := by
  have h1 := hm.mul (⟨hx, hx2⟩ : IsP 60 x x') (by norm_num)
  have h3 := (hm.mul isP_half (by norm_num)).add 210 (⟨ht, h2⟩ : IsP 200 t t') (by norm_num) (by norm_num) (by norm_num)
  exact (h1.add 270 h3 (by norm_num) (by norm_num) (by norm_num)).1

theorem vertex_is (hb : IsModel b c) (hm : ModerateModel b) {p : Vec F64} {q : Vec Ieee} (h : IsVec p q) (hp : PointWithin (2 ^ 60) p) :
    IsVec (place b p) (place c q) :=
  ⟨place1_is (model_side hb hm) hb.tx hm.corner.1 h.1 hp.1, place1_is (model_side hb hm) hb.ty hm.corner.2.1 h.2.1 hp.2.1,
   place1_is (model_side hb hm) hb.tz hm.corner.2.2 h.2.2 hp.2.2⟩

/-- **C116.** The mesh of `ToMesh` is the same in full float64. -/
theorem toMesh_ieee (hb : IsModel b c) (hm : ModerateModel b) {lib : GL Ieee} {P : List Key → Prop}
    (hP : ∀ ks : List Key, (∀ k, k ∈ ks ↔ Present b k) → P ks) (hlib : ∀ ks, P ks → VoxelMesherIeee lib.voxelMesh ks)
    {tris' : List (Tri (Vec Ieee))} (h : ToMeshRun lib c tris') :
    ∃ (lib64 : GL F64) (tris : List (Tri (Vec F64))), ToMeshRun lib64 b tris ∧ SameTris tris tris' ∧
      ∀ ks, P ks → VoxelMesher lib64.voxelMesh ks := by
  classical
  let vm : List Key → List (Tri (Vec F64)) := fun ks => if h : VoxelMesherIeee lib.voxelMesh ks then h.choose else []
  have hvm : ∀ ks, VoxelMesherIeee lib.voxelMesh ks → SameTris (vm ks) (lib.voxelMesh ks) ∧ VoxelMesher vm ks ∧
      ∀ t ∈ vm ks, PointWithin (2 ^ 60) t.V1 ∧ PointWithin (2 ^ 60) t.V2 ∧ PointWithin (2 ^ 60) t.V3 := by
    intro ks hk
    have e : vm ks = hk.choose := dif_pos hk
    obtain ⟨a1, a2, a3, a4⟩ := hk.choose_spec
    unfold VoxelMesher
    rw [e]
    exact ⟨a1, ⟨a2, a3⟩, a4⟩
  obtain ⟨wo, co, hw, hc, rfl⟩ := h
  rw [hb.white] at hw
  rw [model_color hb] at hc
  obtain ⟨s1, -, s3⟩ := hvm (wo ++ co) (hlib _ (hP _ (Marching.present_iff b hw hc)))
  refine ⟨⟨fun _ => 0, fun t => t.V1, vm⟩, _, ⟨wo, co, hw, hc, rfl⟩, ?_, fun ks hk => (hvm ks (hlib ks hk)).2.1⟩
  show SameTris ((vm (wo ++ co)).map _) _
  generalize vm (wo ++ co) = ts at s1 s3
  generalize lib.voxelMesh (wo ++ co) = us at s1
  unfold SameTris at *
  induction s1 with
  | nil => exact .nil
  | cons h _ ih =>
    obtain ⟨p1, p2, p3⟩ := s3 _ List.mem_cons_self
    exact .cons ⟨vertex_is hb hm h.1 p1, vertex_is hb hm h.2.1 p2, vertex_is hb hm h.2.2 p3⟩ (ih fun t ht => s3 t (List.mem_cons_of_mem _ ht))

end

section
variable {load : Bytes → Option (Mesh Ieee)} {bbox : Mesh Ieee → Box Ieee} {fl : DiceFlags Ieee} {fs : FS} {base : Bytes}
  {cuts : List Bytes} {mesh : Bytes → Mesh Ieee} {B : Box F64} {finite : Bytes → Mesh F64} {K K1 : Layout Ieee} {R S : ℚ}
  {whole : Bytes → BinVOX Ieee}

theorem _root_.StlDice.Spec.GoodJobIeee.base_mod (job : GoodJobIeee load bbox fl fs base cuts mesh B finite K K1 R S whole) :
    ModerateJob S B (boxScale B) fl.dim (finite base) := job.moderate base (by rw [job.files.args]; simp)

theorem _root_.StlDice.Spec.GoodJobIeee.scale_is (job : GoodJobIeee load bbox fl fs base cuts mesh B finite K K1 R S whole) :
    Is (boxScale B) (boxScale (jobBox bbox fl (mesh base))) := boxScale_is job.box job.base_mod.reach job.base_mod.box

/-- The layouts with rounding alone. -/
theorem _root_.StlDice.Spec.GoodJobIeee.layouts (job : GoodJobIeee load bbox fl fs base cuts mesh B finite K K1 R S whole) :
    ∃ L L1, IsLayout L K ∧ IsLayout L1 K1 ∧ GridJob64 B fl.dim fl.nx fl.ny fl.nz L L1 R := by
  have hj := job.base_mod
  have hs := job.scale_is
  obtain ⟨d1, d2, d3⟩ := job.files.divs
  obtain ⟨L, e, hl, -⟩ := ieee_tile hj job.box hs (job.meshes base (by rw [job.files.args]; simp)) d1 d2 d3 job.files.layout
  obtain ⟨L1, e1, hl1, -⟩ := ieee_tile hj job.box hs (job.meshes base (by rw [job.files.args]; simp)) (by norm_num) (by norm_num) (by norm_num) job.undiced
  obtain ⟨⟨px, -, bx⟩, ⟨py, -, by_⟩, ⟨pz, -, bz⟩⟩ := layout_bounds hj hs job.box (by norm_num) (by norm_num) (by norm_num) e1
    (t := ⟨0, 0, 0⟩) (by decide)
  dsimp only at bx by_ bz
  rw [Int.zero_mul] at bx by_ bz
  have ix := job.insideX
  have iy := job.insideY
  have iz := job.insideZ
  rw [hl1.dimX] at ix
  rw [hl1.dimY] at iy
  rw [hl1.dimZ] at iz
  refine ⟨L, L1, hl, hl1, ⟨e, e1, job.files.divs, job.files.dim, hj.dim1, hj.wide, ?_, ?_, ?_, ⟨px, by omega⟩, ⟨py, by omega⟩, ⟨pz, by omega⟩,
    ix, iy, iz⟩⟩
  · rw [← hl.dimX]
    exact job.files.dims.1.1
  · refine le_trans ?_ hj.lo
    rw [show (1 : ℚ) / 2 ^ 100 = 2 ^ (-100 : Int) by rw [zpow_neg, one_div]; norm_cast]
    exact zpow_le_zpow_right₀ (by norm_num) (by norm_num)
  · refine hj.hi.trans ?_
    rw [show (2 : ℚ) ^ 100 = 2 ^ (100 : Int) by norm_cast]
    exact zpow_le_zpow_right₀ (by norm_num) (by norm_num)

/-- The mesh of a tile. -/
theorem tile_mesh_ieee (job : GoodJobIeee load bbox fl fs base cuts mesh B finite K K1 R S whole) {L L1 : Layout F64} (hl : IsLayout L K)
    (hg : GridJob64 B fl.dim fl.nx fl.ny fl.nz L L1 R) {lib : GL Ieee}
    (hlib : ∀ ks : List Key, (∀ k ∈ ks, InDims K.dimX K.dimY K.dimZ k) → VoxelMesherIeee lib.voxelMesh ks) {t : Key}
    (ht : InDims fl.nx fl.ny fl.nz t) {W : Key → Prop} (hW : ∀ l, W l → InDims K.dimX K.dimY K.dimZ l) {c : BinVOX Ieee}
    {tris' : List (Tri (Vec Ieee))} (hp : InPlace K (jobBox bbox fl (mesh base)) t c) (hv : ∀ l, Vox c l ↔ W l) (hr : ToMeshRun lib c tris') :
    ∃ tris ex, SameTris tris tris' ∧ TileMesh64 L B t W tris ex := by
  have htm : t ∈ tileIndices fl.nx fl.ny fl.nz := (mem_tileIndices _ _ _ t).mpr ht
  obtain ⟨-, hIM, hmod⟩ := tile_ieee job.base_mod job.box job.scale_is hg.divs.1 hg.divs.2.1 hg.divs.2.2 hg.layout job.files.layout htm
  obtain ⟨⟨px, ox, bx⟩, ⟨py, oy, by_⟩, ⟨pz, oz, bz⟩⟩ := layout_bounds job.base_mod job.scale_is job.box hg.divs.1 hg.divs.2.1 hg.divs.2.2
    hg.layout htm
  let b : BinVOX F64 := { tileModel L B t with WhiteVoxels := c.WhiteVoxels, ColorVoxels := none }
  have hcol : c.color = [] := hp.white
  have hb : IsModel b c := by
    refine ⟨?_, ?_, ?_, ?_, ?_, ?_, ?_, rfl, ?_⟩
    · rw [hp.nx]; exact hl.dimX
    · rw [hp.ny]; exact hl.dimY
    · rw [hp.nz]; exact hl.dimZ
    · rw [hp.tx]; exact hIM.tx
    · rw [hp.ty]; exact hIM.ty
    · rw [hp.tz]; exact hIM.tz
    · rw [hp.scale]; exact hl.subScale
    · rw [hcol]; rfl
  have hwb : WhiteOnly b := rfl
  have hvb : ∀ l, Vox b l ↔ W l := hv
  have hpb : InPlace L B t b := ⟨rfl, rfl, rfl, rfl, rfl, rfl, rfl, hwb⟩
  have hpres : ∀ k, Present b k ↔ W k := fun k => (present_vox hwb k).trans (hvb k)
  have hmb : ModerateModel b := by
    refine ⟨hmod.lo, hmod.hi, hmod.dim, ⟨hmod.corner.1.trans hmod.reach, hmod.corner.2.1.trans hmod.reach, hmod.corner.2.2.trans hmod.reach⟩, ?_⟩
    intro k hk
    have := hW k ((hpres k).mp hk)
    rw [hl.dimX, hl.dimY, hl.dimZ] at this
    obtain ⟨h1, h2, h3, h4, h5, h6⟩ := this
    exact ⟨abs_le.mpr ⟨by omega, by omega⟩, abs_le.mpr ⟨by omega, by omega⟩, abs_le.mpr ⟨by omega, by omega⟩⟩
  obtain ⟨lib64, tris, r1, r2, r3⟩ := toMesh_ieee hb hmb (P := fun ks => ∀ k ∈ ks, InDims K.dimX K.dimY K.dimZ k)
    (fun ks hks k hk => hW k ((hpres k).mp ((hks k).mp hk))) hlib hr
  rw [hl.dimX, hl.dimY, hl.dimZ] at r3 hW
  obtain ⟨ex, hx⟩ := tileMesh64_cubes r3 (hg.ordinary t) hW hpb hvb r1
  exact ⟨tris, ex, r2, hx⟩

/-- **C116.** stldice and then its script in full float64, for a job whose meshes are in general position to the grid and whose files
    can all be read and written: every tile's STL file holds a mesh of finite numbers, closed, up to the last few bits an exact mesh of
    the voxels of the tile that are left of the base after the cuts — the voxels of the undiced models —, in the tile's place; a tile
    without a file has nothing left; the exact volumes add up; and the merged file, written iff two tiles have voxel files, has the
    triangles of all the tiles' STL files. -/
theorem dice_then_script_ieee {env : Bytes → Key → FileEnv} (henv : ∀ a t, GoodEnv (env a t)) {fs' : FS} {out : Bytes}
    (job : GoodJobIeee load bbox fl fs base cuts mesh B finite K K1 R S whole) (h : DiceCmd load bbox env fl fs out fs' .done)
    {lib : GL Ieee} (hlib : ∀ ks : List Key, (∀ k ∈ ks, InDims K.dimX K.dimY K.dimZ k) → VoxelMesherIeee lib.voxelMesh ks)
    {loadTris : Bytes → Option (List (Tri (Vec Ieee)))} {round : Vec Ieee → Vec Ieee}
    (hload : ∀ ts, (lib.stl ts).length < 84 + 50 * 4294967296 → loadTris (lib.stl ts) = some (ts.map (moveTri round)))
    {workers : Nat} {d' : Disk} (hs : ScriptRun (GoodLine lib loadTris workers) fs'.get (shellWords out) d')
    (hsmall : ∀ t file, d' (tileStl fl t) = some file → file.length < 84 + 50 * 4294967296) :
    ∃ (L : Layout F64) (m : Key → List (Tri (Vec Ieee))) (m64 : Key → List (Tri (Vec F64))) (ex : Key → List (Tri (Vec ℚ))),
      IsLayout L K ∧
      (∀ t, InDims fl.nx fl.ny fl.nz t →
        (d' (tileStl fl t) = some (lib.stl (m t)) ∨
          d' (tileStl fl t) = none ∧ m t = [] ∧ ∀ l, ¬ TileLeft K base cuts whole t l) ∧
        SameTris (m64 t) (m t) ∧ TileMesh64 L B t (TileLeft K base cuts whole t) (m64 t) (ex t) ∧
        NearModel R (gridPart B (boxScale B) fl.dim ⟨K.dimX, K.dimY, K.dimZ⟩ ⟨t.X * K.dimX, t.Y * K.dimY, t.Z * K.dimZ⟩)
          (tileModel L B t)) ∧
      (∀ ls : List Key, ls.Nodup →
        (∀ k, k ∈ ls ↔ InDims (fl.nx * K.dimX) (fl.ny * K.dimY) (fl.nz * K.dimZ) k ∧ Left base cuts whole k) →
        ((tileIndices fl.nx fl.ny fl.nz).map fun t => volume (ex t)).sum = ls.length * tileSide L B ^ 3) ∧
      ((∃ t u, t ≠ u ∧ HasTile fl fs' t ∧ HasTile fl fs' u) → ∃ order : List Key, order.Nodup ∧
        (∀ t, t ∈ order ↔ InDims fl.nx fl.ny fl.nz t ∧ d' (tileStl fl t) ≠ none) ∧
        d' (outName fl ++ ascii ".stl") =
          some (if order = [] then [] else lib.stl (order.flatMap fun t => (m t).map (moveTri round)))) ∧
      ((¬ ∃ t u, t ≠ u ∧ HasTile fl fs' t ∧ HasTile fl fs' u) → d' (outName fl ++ ascii ".stl") = none) ∧
      ∀ n, n ≠ outName fl ++ ascii ".stl" → (∀ t, InDims fl.nx fl.ny fl.nz t → n ≠ tileStl fl t) → d' n = fs'.get n := by
  obtain ⟨L, L1, hl, -, hg⟩ := job.layouts
  obtain ⟨m, hm, h2, h3, h4⟩ := dice_then_script_any IeeeT.whiteCancels_ieee henv job.files
    (W := fun a t l => Vox (whole a) (inWhole K t l)) (by
      intro a ha t ht vox hvox l hl
      exact dice_ieee_same_voxels (job.moderate a ha) job.box job.scale_is (job.meshes a ha) job.files.divs.1 job.files.divs.2.1
        job.files.divs.2.2 job.files.layout job.undiced job.insideX job.insideY job.insideZ (job.general a ha) (job.voxelized a ha)
        ((mem_tileIndices _ _ _ t).mpr ht) hvox hl) h hload hs hsmall
  have hex : ∀ t, ∃ m64 ex, InDims fl.nx fl.ny fl.nz t →
      (d' (tileStl fl t) = some (lib.stl (m t)) ∨ d' (tileStl fl t) = none ∧ m t = [] ∧ ∀ l, ¬ TileLeft K base cuts whole t l) ∧
      SameTris m64 (m t) ∧ TileMesh64 L B t (TileLeft K base cuts whole t) m64 ex := by
    intro t
    by_cases ht : InDims fl.nx fl.ny fl.nz t
    · rcases hm t ht with ⟨e1, e2, e3⟩ | ⟨e1, c, e2, e3, e4⟩
      · refine ⟨[], [], fun _ => ⟨Or.inr ⟨e1, e2, e3⟩, ?_, ?_⟩⟩
        · rw [e2]; exact .nil
        · exact tileMesh64_empty e3
      · obtain ⟨m64, ex, hx⟩ := tile_mesh_ieee job hl hg hlib ht (W := TileLeft K base cuts whole t) (fun l hl => hl.1) e2 e3 e4
        exact ⟨m64, ex, fun _ => ⟨Or.inl e1, hx⟩⟩
    · exact ⟨[], [], fun h => absurd h ht⟩
  choose m64 ex hex using hex
  refine ⟨L, m, m64, ex, hl, fun t ht => ⟨(hex t ht).1, (hex t ht).2.1, (hex t ht).2.2, ?_⟩, ?_, h2, h3, h4⟩
  · have := hg.near ht
    rw [← hl.dimX, ← hl.dimY, ← hl.dimZ] at this
    exact this
  · intro ls hn hls
    exact tiles_volume job.files.dims.1.1 job.files.dims.2.1.1 job.files.dims.2.2.1 (fun t ht => (hex t ht).2.2) hn hls

end

/-! ## A job -/

theorem tetraLow_job : ModerateJob 3 unitBox (ofInt 1) 4 tetraLow where
  wide := tetra_job.wide
  dim0 := tetra_job.dim0
  dim1 := tetra_job.dim1
  reach := tetra_job.reach
  lo := tetra_job.lo
  hi := tetra_job.hi
  grid := tetra_job.grid
  box := tetra_job.box
  up := tetra_job.up
  points := by decide +kernel
  normals := by
    have h : ∀ p ∈ tetraLow.Triangles, PointWithin 1 (tetraLow.heap p).V1.Normal := by decide +kernel
    exact fun p hp => (h p hp).mono (one_le_pow₀ (by norm_num))

theorem tetraLow_ieee : IsMesh tetraLow (ieeeMesh tetraLow) := by
  have h : (3 : ℚ) ≤ 2 ^ 200 := le_trans (by norm_num : (3 : ℚ) ≤ 2 ^ 2) (pow_le_pow_right₀ (by norm_num) (by norm_num))
  refine ⟨rfl, fun p hp => ?_, fun p hp => ieeeVec_is (tetraLow_job.normals p hp)⟩
  obtain ⟨a, c, d⟩ := tetraLow_job.points p hp
  exact ⟨ieeeVec_is (a.mono h), ieeeVec_is (c.mono h), ieeeVec_is (d.mono h)⟩

/-- `faceMesh64` in full float64. -/
def faceMeshIeee (ks : List Key) : List (Tri (Vec Ieee)) := (faceMesh64 ks).map (moveTri ieeeVec)

theorem faceMeshIeee_mesher {ks : List Key} (hk : ∀ k ∈ ks, Marching.CellSmall k) : VoxelMesherIeee faceMeshIeee ks := by
  have hb : ∀ t ∈ faceMesh64 ks, PointWithin (2 ^ 60) t.V1 ∧ PointWithin (2 ^ 60) t.V2 ∧ PointWithin (2 ^ 60) t.V3 := by
    intro t ht
    have he : moveTri exactVec t ∈ exactTris (faceMesh64 ks) := List.mem_map_of_mem ht
    rw [faceMesh64_exact hk] at he
    unfold faceMesh at he
    obtain ⟨k, hkk, he⟩ := List.mem_flatMap.mp he
    obtain ⟨e, -, he⟩ := List.mem_flatMap.mp he
    obtain ⟨s, hs, he⟩ := List.mem_map.mp he
    have hs := (List.mem_filter.mp hs).1
    have hkk := hk k (List.mem_dedup.mp hkk)
    have one : ∀ (c : Int) (x y : ℚ), |c| ≤ 2 ^ 51 → (x = 1 / 2 ∨ x = -1 / 2) → y = 1 * x + (c : ℚ) → |y| ≤ 2 ^ 60 := by
      intro c x y hc hx hy
      have hc' : |(c : ℚ)| ≤ 2 ^ 51 := by exact_mod_cast hc
      rw [abs_le] at hc' ⊢
      rcases hx with rfl | rfl <;> constructor <;> linarith
    have key : ∀ p : Vec F64, ∀ q, (q = s.V1 ∨ q = s.V2 ∨ q = s.V3) → exactVec p = moveBy k q → PointWithin (2 ^ 60) p := by
      intro p q hq e
      obtain ⟨h1, h2, h3⟩ := cubeTris_half s hs q hq
      exact ⟨one _ _ _ hkk.1 h1 (congrArg Vec.X e), one _ _ _ hkk.2.1 h2 (congrArg Vec.Y e), one _ _ _ hkk.2.2 h3 (congrArg Vec.Z e)⟩
    exact ⟨key _ _ (.inl rfl) (congrArg Tri.V1 he).symm, key _ _ (.inr (.inl rfl)) (congrArg Tri.V2 he).symm,
      key _ _ (.inr (.inr rfl)) (congrArg Tri.V3 he).symm⟩
  have hm := faceMesh64_mesher hk
  refine ⟨faceMesh64 ks, ?_, hm.1, hm.2, hb⟩
  unfold faceMeshIeee SameTris
  generalize faceMesh64 ks = ts at hb
  have h : (2 : ℚ) ^ 60 ≤ 2 ^ 200 := pow_le_pow_right₀ (by norm_num) (by norm_num)
  induction ts with
  | nil => exact .nil
  | cons t ts ih =>
    obtain ⟨a, c, d⟩ := hb t List.mem_cons_self
    exact .cons ⟨ieeeVec_is (a.mono h), ieeeVec_is (c.mono h), ieeeVec_is (d.mono h)⟩ (ih fun t ht => hb t (List.mem_cons_of_mem _ ht))

/-- The bits of a finite number as a float32. -/
def bits32 : Ieee → Nat
  | .fin s m _ => encode32 (Ieee.signed s m)
  | _ => 0

/-- The box of the job. -/
def ieeeBox : Box Ieee := ⟨ieeeVec unitBox.Min, ieeeVec unitBox.Max⟩

/-- The flags of `stldice -mbb 0,0,0,1,1,1 -dim 4 -nx 2 -ny 2 -nz 2 a.stl b.stl`. -/
def exFlagsIeee : DiceFlags Ieee := ⟨some (some ieeeBox), 4, 2, 2, 2, [ascii "a.stl", ascii "b.stl"]⟩

/-- The mesh in each file. -/
def exMeshIeee (n : Bytes) : Mesh Ieee := if n = ascii "a.stl" then ieeeMesh tetra else ieeeMesh tetraLow

theorem exBoxScale : boxScale unitBox = ofInt 1 := by decide +kernel

theorem exBoxScaleIeee : Is (boxScale unitBox) (boxScale ieeeBox) :=
  boxScale_is (S := 3) unitBox_ieee (by norm_num) tetra_job.box

theorem exLayoutIeee {n : Int} (h0 : 0 < n) (he : layout unitBox (boxScale unitBox) 4 n n n = .ok (exLayout64 n)) :
    ∃ K, layout ieeeBox (boxScale ieeeBox) 4 n n n = .ok K ∧ IsLayout (exLayout64 n) K := by
  have hs := exBoxScaleIeee
  rw [exBoxScale] at he hs
  rcases layout_ieee tetra_job unitBox_ieee hs h0 h0 h0 with ⟨e, -⟩ | ⟨L, K, e, h, hl⟩
  · rw [he] at e; cases e
  · rw [he] at e
    injection e with e
    subst e
    exact ⟨K, h, hl⟩

/-- The hypotheses of C116 are met: a tetrahedron minus a flatter one, in eight tiles.  There is such a job, stldice has a successful
    run and its script has one; the mesher is `faceMeshIeee`, the files hold float32 numbers. -/
theorem exJobIeee_runs (parseF : Bytes → Ieee) :
    ∃ (load : Bytes → Option (Mesh Ieee)) (K K1 : Layout Ieee) (whole : Bytes → BinVOX Ieee) (out : Bytes) (fs' : FS) (d' : Disk)
      (loadTris : Bytes → Option (List (Tri (Vec Ieee)))) (lib : GL Ieee) (round : Vec Ieee → Vec Ieee),
      GoodJobIeee load (fun _ => ieeeBox) exFlagsIeee exDir (ascii "a.stl") [ascii "b.stl"] exMeshIeee unitBox exMesh64 K K1 3 3 whole ∧
      DiceCmd load (fun _ => ieeeBox) (fun _ _ => ⟨true, [], true⟩) exFlagsIeee exDir out fs' .done ∧
      (∀ ks : List Key, (∀ k ∈ ks, InDims K.dimX K.dimY K.dimZ k) → VoxelMesherIeee lib.voxelMesh ks) ∧
      (∀ ts, (lib.stl ts).length < 84 + 50 * 4294967296 → loadTris (lib.stl ts) = some (ts.map (moveTri round))) ∧
      ScriptRun (GoodLine lib loadTris 3) fs'.get (shellWords out) d' ∧
      (∀ t file, d' (tileStl exFlagsIeee t) = some file → file.length < 84 + 50 * 4294967296) := by
  let load : Bytes → Option (Mesh Ieee) := fun c => some (if c = [1] then ieeeMesh tetra else ieeeMesh tetraLow)
  let bbox : Mesh Ieee → Box Ieee := fun _ => ieeeBox
  let f32' : Nat → Ieee := fun n => ieee (f32 n)
  let lib : GL Ieee := ⟨fun a => bits32 a, fun t => t.V1, faceMeshIeee⟩
  let loadTris : Bytes → Option (List (Tri (Vec Ieee))) := fun f =>
    match StlText.stlToMesh f32' parseF f with
    | .ok ts => some ts
    | _ => none
  have hbs := exBoxScale
  obtain ⟨K, h2, hl2⟩ := exLayoutIeee (n := 2) (by norm_num) (by decide +kernel)
  obtain ⟨K1, h1, hl1⟩ := exLayoutIeee (n := 1) (by norm_num) (by decide +kernel)
  have d2 : K.dimX = 2 ∧ K.dimY = 2 ∧ K.dimZ = 2 := by
    rw [hl2.dimX, hl2.dimY, hl2.dimZ]; decide +kernel
  have d1 : K1.dimX = 4 ∧ K1.dimY = 4 ∧ K1.dimZ = 4 := by
    rw [hl1.dimX, hl1.dimY, hl1.dimZ]; decide +kernel
  have nz' : ¬ zeroDim (tileModel K1 ieeeBox ⟨0, 0, 0⟩) := by
    unfold zeroDim
    show ¬ (K1.dimX = 0 ∨ K1.dimY = 0 ∨ K1.dimZ = 0)
    omega
  have hwhole : ∀ a, ∃ w, VoxelizeRun (tileModel K1 ieeeBox ⟨0, 0, 0⟩) (exMeshIeee a) (.ok w) := fun a => run_ok _ _ nz'
  choose whole hw using hwhole
  have two : ∀ a ∈ exFlagsIeee.args, a = ascii "a.stl" ∨ a = ascii "b.stl" := by
    intro a ha
    simpa [exFlagsIeee] using ha
  have files : JobFiles load bbox exFlagsIeee exDir (ascii "a.stl") [ascii "b.stl"] exMeshIeee K := by
    refine ⟨rfl, by decide, ?_, by decide, by decide, ?_, h2, ?_, ?_, ?_⟩
    · unfold Plain
      decide
    · intro a ha
      rcases two a ha with rfl | rfl <;> rfl
    · rw [d2.1, d2.2.1, d2.2.2]
      decide
    · intro a _ t _
      exact exDir_get (fun e => tileStl_ne_bin (ascii "a") _ e.symm) (fun e => tileStl_ne_bin (ascii "b") _ e.symm)
    · intro mid
      refine exDir_get ?_ ?_ <;>
      · intro e
        have := congrArg List.head? e
        revert this
        show (outName exFlagsIeee ++ mid ++ ascii ".stl").head? = _ → _
        have h0 : ∃ r, outName exFlagsIeee = 111 :: r := ⟨_, rfl⟩
        obtain ⟨r, hr⟩ := h0
        rw [hr]
        simp
        decide
  have job : GoodJobIeee load bbox exFlagsIeee exDir (ascii "a.stl") [ascii "b.stl"] exMeshIeee unitBox exMesh64 K K1 3 3 whole := by
    refine ⟨files, h1, unitBox_ieee, ?_, ?_, ?_, ?_, ?_, ?_, fun a _ => hw a⟩
    · intro a ha
      rcases two a ha with rfl | rfl
      · exact tetra_ieee
      · exact tetraLow_ieee
    · intro a ha
      rw [hbs]
      rcases two a ha with rfl | rfl
      · exact tetra_job
      · exact tetraLow_job
    · rw [d1.1]; show |unitBox.Min.X.val| + ((4 : Int) : ℚ) / ((4 : Int) / (boxScale unitBox).val) ≤ 3; decide +kernel
    · rw [d1.2.1]; show |unitBox.Min.Y.val| + ((4 : Int) : ℚ) / ((4 : Int) / (boxScale unitBox).val) ≤ 3; decide +kernel
    · rw [d1.2.2]; show |unitBox.Min.Z.val| + ((4 : Int) : ℚ) / ((4 : Int) / (boxScale unitBox).val) ≤ 3; decide +kernel
    · intro a ha
      show GeneralPosition 3 (gridPart unitBox (boxScale unitBox) 4 _ _) _
      rw [d1.1, d1.2.1, d1.2.2, hbs]
      rcases two a ha with rfl | rfl
      · exact tetra_general
      · exact tetraLow_general
  have henv : ∀ (a : Bytes) (t : Key), GoodEnv ((fun _ _ => ⟨true, [], true⟩ : Bytes → Key → FileEnv) a t) :=
    fun _ _ => ⟨rfl, rfl, fun _ h => (List.not_mem_nil h).elim⟩
  obtain ⟨out, fs', h⟩ := dice_job_succeeds_any henv files (by nofun) (by decide)
  have hload : ∀ ts, (lib.stl ts).length < 84 + 50 * 4294967296 →
      loadTris (lib.stl ts) = some (ts.map (moveTri (asFloat32 lib.bits f32'))) := by
    intro ts hl
    show (match StlText.stlToMesh f32' parseF (lib.stl ts) with
      | .ok ts => some ts
      | _ => none) = _
    rw [stl_parses lib ts hl]
  obtain ⟨d', g1, g2⟩ := dice_script_runs_any IeeeT.whiteCancels_ieee (lib := lib) (loadTris := loadTris) (workers := 3) henv files h (by
      intro ks hks
      rw [d2.1, d2.2.1, d2.2.2] at hks
      have hl := faceMesh_length ks
      have hsub : ks.dedup.length ≤ (tileIndices 2 2 2).length := by
        refine (List.subperm_of_subset ks.nodup_dedup ?_).length_le
        intro k hk
        rw [mem_tileIndices]
        exact hks k (List.mem_dedup.mp hk)
      have h8 : (tileIndices 2 2 2).length = 8 := by decide
      show (faceMeshIeee ks).length < 4294967296
      unfold faceMeshIeee faceMesh64
      rw [List.length_map, List.length_map]
      omega) (by
      intro ts hl
      rw [hload ts hl]
      rfl) (by decide)
  refine ⟨load, K, K1, whole, out, fs', d', loadTris, lib, _, job, h, ?_, hload, g1, g2⟩
  intro ks hks
  rw [d2.1, d2.2.1, d2.2.2] at hks
  refine faceMeshIeee_mesher ?_
  intro k hk
  have := hks k hk
  unfold InDims at this
  unfold Marching.CellSmall
  norm_num
  refine ⟨?_, ?_, ?_⟩ <;> rw [abs_le] <;> omega

/-- `dice_then_script_ieee` on this job. -/
example (parseF : Bytes → Ieee) : ∃ (load : Bytes → Option (Mesh Ieee)) (L : Layout F64) (K : Layout Ieee) (whole : Bytes → BinVOX Ieee)
      (out : Bytes) (fs' : FS) (d' : Disk) (loadTris : Bytes → Option (List (Tri (Vec Ieee)))) (lib : GL Ieee)
      (m : Key → List (Tri (Vec Ieee))) (m64 : Key → List (Tri (Vec F64))) (ex : Key → List (Tri (Vec ℚ))),
    DiceCmd load (fun _ => ieeeBox) (fun _ _ => ⟨true, [], true⟩) exFlagsIeee exDir out fs' .done ∧
    ScriptRun (GoodLine lib loadTris 3) fs'.get (shellWords out) d' ∧ IsLayout L K ∧
    (∀ t, InDims 2 2 2 t → SameTris (m64 t) (m t) ∧
      TileMesh64 L unitBox t (TileLeft K (ascii "a.stl") [ascii "b.stl"] whole t) (m64 t) (ex t)) := by
  obtain ⟨load, K, K1, whole, out, fs', d', loadTris, lib, round, job, h, hlib, hload, hs, hsmall⟩ := exJobIeee_runs parseF
  obtain ⟨L, m, m64, ex, hl, hm, -⟩ := dice_then_script_ieee exEnv_good job h hlib hload hs hsmall
  exact ⟨load, L, K, whole, out, fs', d', loadTris, lib, m, m64, ex, h, hs, hl, fun t ht => ⟨(hm t ht).2.1, (hm t ht).2.2.1⟩⟩

end StlDice.Cmd
