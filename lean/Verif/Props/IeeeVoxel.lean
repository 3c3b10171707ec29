import Verif.Props.IeeeDice
import Verif.Props.DiceConvexFloat

/-! # What voxelizing and dicing store in full float64 (C111) -/

namespace StlDice
open Spec GoFloat BinVOX F64 IeeeL

/-- A run of `Voxelize` for a region with voxels. -/
theorem run_ok {F : Type} [GoFloat F] (b : BinVOX F) (m : Mesh F) (h : ¬ zeroDim b) : ∃ out, VoxelizeRun b m (.ok out) := by
  obtain ⟨out, ho⟩ := (voxelize_defined b m).1
  obtain ⟨o, rfl, -⟩ := voxelize_exact b m h out ho
  exact ⟨o, ho⟩

theorem not_zeroDim {F : Type} [GoFloat F] {b out : BinVOX F} {m : Mesh F} (h : VoxelizeRun b m (.ok out)) : ¬ zeroDim b := by
  intro hz
  unfold VoxelizeRun at h
  rw [if_pos hz] at h
  cases h

section
variable {R S : ℚ} {b : BinVOX ℚ} {b' : BinVOX F64} {c out : BinVOX Ieee} {m : Mesh F64} {n : Mesh Ieee}

/-- A run in full float64 has a run with rounding alone beside it, with the same voxels. -/
theorem ieee_run (hb : IsModel b' c) (hn : IsMesh m n) (hm : ModerateVox S b' m) (h : VoxelizeRun c n (.ok out)) :
    ∃ o, VoxelizeRun b' m (.ok o) ∧ ∀ k, out.white.has k = true ↔ o.white.has k = true := by
  have hz := not_zeroDim h
  obtain ⟨o, ho⟩ := run_ok b' m (by unfold zeroDim at *; rwa [hb.nx, hb.ny, hb.nz] at hz)
  exact ⟨o, ho, fun k => voxelize_ieee hb hn hm ho h k⟩

/-- **C111.** Full float64, a mesh in general position to the grid: exactly the voxels of exact arithmetic. -/
theorem voxelize_ieee_exact {o : BinVOX ℚ} (hb : IsModel b' c) (hn : IsMesh m n) (hm : ModerateVox S b' m) (hr : NearModel R b b')
    (hg : GeneralPosition R b (exactMesh m)) (h : VoxelizeRun c n (.ok out)) (h' : VoxelizeRun b (exactMesh m) (.ok o)) (k : Key) :
    out.white.has k = true ↔ o.white.has k = true := by
  obtain ⟨o', ho', e⟩ := ieee_run hb hn hm h
  rw [e, voxelize_f64 hr hg h' ho']

/-- **C111.** Full float64, whatever the position of the mesh: a stored voxel is within one voxel, up to rounding, of a point
    of the solid; and a voxel deep enough in a convex solid is stored. -/
theorem voxelize_convex_ieee (hb : IsModel b' c) (hn : IsMesh m n) (hm : ModerateVox S b' m) (hr : NearModel R b b')
    (hg : InReach R b (exactMesh m)) (h : VoxelizeRun c n (.ok out)) {x y z : Int} :
    (out.white.has ⟨x, y, z⟩ = true → ∃ v, InSolid (exactMesh m) v ∧ AroundUpTo b 1 (R / 2 ^ 43) x y z v) ∧
    (b.VoxelsPerMM * (R / 2 ^ 43) < 1 / 2 → ConvexMesh (exactMesh m) → NormalsAgree (exactMesh m) →
      (∀ p ∈ m.Triangles, OffLimit (m.heap p).V1.Normal.X.val) →
      ClearSlice (R / 2 ^ 43) (exactMesh m) (sliceMiddle b z) → InDims b.NX b.NY b.NZ ⟨x, y, z⟩ →
      (∀ v, AroundUpTo b 1 (R / 2 ^ 43) x y z v → InSolid (exactMesh m) v) → out.white.has ⟨x, y, z⟩ = true) := by
  obtain ⟨o, ho, e⟩ := ieee_run hb hn hm h
  refine ⟨fun hk => voxelize_near_solid_f64 hr hg ho ((e _).mp hk), fun hV hc ha hl hs hd hin => (e _).mpr ?_⟩
  exact voxelize_fills_convex_f64 hr hg hV hc ha hl ho hs hd hin

end

section
variable {R S : ℚ} {mbb : Box F64} {mbb' : Box Ieee} {scale : F64} {scale' : Ieee} {dim nx ny nz : Int} {m : Mesh F64} {n : Mesh Ieee}

/-- A tile in full float64 has a tile with rounding alone beside it. -/
theorem ieee_tile (hj : ModerateJob S mbb scale dim m) (hb : IsBox mbb mbb') (hs : Is scale scale') (hn : IsMesh m n)
    (hnx : 0 < nx) (hny : 0 < ny) (hnz : 0 < nz) {K : Layout Ieee} (h : layout mbb' scale' dim nx ny nz = .ok K) :
    ∃ L, layout mbb scale dim nx ny nz = .ok L ∧ IsLayout L K ∧ ∀ t ∈ tileIndices nx ny nz, ∀ tile',
      VoxelizeRun (tileModel K mbb' t) n (.ok tile') →
        ∃ tile, VoxelizeRun (tileModel L mbb t) m (.ok tile) ∧ ∀ k, tile'.white.has k = true ↔ tile.white.has k = true := by
  rcases layout_ieee hj hb hs hnx hny hnz with ⟨-, e⟩ | ⟨L, K2, e1, e2, hl⟩
  · rw [h] at e; cases e
  · rw [h] at e2
    injection e2 with e2
    subst e2
    refine ⟨L, e1, hl, fun t ht tile' h' => ?_⟩
    obtain ⟨_, _, _, a1, a2, a3, -⟩ := layout_ok e1
    obtain ⟨tile, ho⟩ := run_ok (tileModel L mbb t) m (by
      rintro (e | e | e)
      · exact a1 e
      · exact a2 e
      · exact a3 e)
    exact ⟨tile, ho, fun k => (dice_ieee hj hb hs hn hnx hny hnz e1 h ht ho h' k).2⟩

/-- **C111.** Dicing in full float64, a mesh in general position to the grid of the job: each tile holds, inside its own
    dimensions, exactly the voxels the undiced job stores in the tile's box. -/
theorem dice_ieee_same_voxels (hj : ModerateJob S mbb scale dim m) (hb : IsBox mbb mbb') (hs : Is scale scale') (hn : IsMesh m n)
    (hnx : 0 < nx) (hny : 0 < ny) (hnz : 0 < nz) {K K1 : Layout Ieee} (h : layout mbb' scale' dim nx ny nz = .ok K)
    (h1 : layout mbb' scale' dim 1 1 1 = .ok K1)
    (hx : |mbb.Min.X.val| + (K1.dimX : ℚ) / (dim / scale.val) ≤ R) (hy : |mbb.Min.Y.val| + (K1.dimY : ℚ) / (dim / scale.val) ≤ R)
    (hz : |mbb.Min.Z.val| + (K1.dimZ : ℚ) / (dim / scale.val) ≤ R)
    (hg : GeneralPosition R (gridPart mbb scale dim ⟨K1.dimX, K1.dimY, K1.dimZ⟩ ⟨0, 0, 0⟩) (exactMesh m))
    {whole : BinVOX Ieee} (hw : VoxelizeRun (tileModel K1 mbb' ⟨0, 0, 0⟩) n (.ok whole))
    {t : Key} (ht : t ∈ tileIndices nx ny nz) {tile : BinVOX Ieee} (htile : VoxelizeRun (tileModel K mbb' t) n (.ok tile))
    {l : Key} (hl : InDims K.dimX K.dimY K.dimZ l) :
    tile.white.has l = true ↔
      whole.white.has (l.shift (t.X * K.dimX) (t.Y * K.dimY) (t.Z * K.dimZ)) = true := by
  obtain ⟨L, eL, hL, tL⟩ := ieee_tile hj hb hs hn hnx hny hnz h
  obtain ⟨L1, eL1, hL1, tL1⟩ := ieee_tile hj hb hs hn (by norm_num) (by norm_num) (by norm_num) h1
  have h000 : (⟨0, 0, 0⟩ : Key) ∈ tileIndices 1 1 1 := by decide
  obtain ⟨o, ho, e⟩ := tL t ht _ htile
  obtain ⟨o1, ho1, e1⟩ := tL1 ⟨0, 0, 0⟩ h000 _ hw
  obtain ⟨⟨px, -, bx⟩, ⟨py, -, by_⟩, ⟨pz, -, bz⟩⟩ := layout_bounds hj hs hb (by norm_num) (by norm_num) (by norm_num) eL1 h000
  dsimp only at bx by_ bz
  rw [Int.zero_mul] at bx by_ bz
  rw [hL1.dimX] at hx
  rw [hL1.dimY] at hy
  rw [hL1.dimZ] at hz
  rw [hL1.dimX, hL1.dimY, hL1.dimZ] at hg
  rw [hL.dimX, hL.dimY, hL.dimZ] at hl
  rw [e, e1, hL.dimX, hL.dimY, hL.dimZ]
  exact dice_f64_same_voxels eL eL1 hnx hny hnz hj.wide hj.dim0 hj.dim1 ⟨px, by omega⟩ ⟨py, by omega⟩ ⟨pz, by omega⟩ hx hy hz hg
    ho1 ht ho hl

/-- **C111.** Dicing in full float64, whatever the position of the mesh: each voxel stored in a tile has a point of the solid
    within one voxel, up to rounding; and a tile stores each of its voxels that is deep enough in a convex solid. -/
theorem dice_convex_ieee (hj : ModerateJob S mbb scale dim m) (hb : IsBox mbb mbb') (hs : Is scale scale') (hn : IsMesh m n)
    (hnx : 0 < nx) (hny : 0 < ny) (hnz : 0 < nz) {K K1 : Layout Ieee} (h : layout mbb' scale' dim nx ny nz = .ok K)
    (h1 : layout mbb' scale' dim 1 1 1 = .ok K1)
    (hx : |mbb.Min.X.val| + (K1.dimX : ℚ) / (dim / scale.val) ≤ R) (hy : |mbb.Min.Y.val| + (K1.dimY : ℚ) / (dim / scale.val) ≤ R)
    (hz : |mbb.Min.Z.val| + (K1.dimZ : ℚ) / (dim / scale.val) ≤ R)
    (hg : InReach R (gridPart mbb scale dim ⟨K1.dimX, K1.dimY, K1.dimZ⟩ ⟨0, 0, 0⟩) (exactMesh m))
    {t : Key} (ht : t ∈ tileIndices nx ny nz) {tile : BinVOX Ieee} (htile : VoxelizeRun (tileModel K mbb' t) n (.ok tile))
    {l k : Key} (hl : InDims K.dimX K.dimY K.dimZ l) (hk : k = l.shift (t.X * K.dimX) (t.Y * K.dimY) (t.Z * K.dimZ)) :
    (tile.white.has l = true → ∃ v, InSolid (exactMesh m) v ∧
      AroundUpTo (gridPart mbb scale dim ⟨K1.dimX, K1.dimY, K1.dimZ⟩ ⟨0, 0, 0⟩) 1 (R / 2 ^ 43) k.X k.Y k.Z v) ∧
    (dim / scale.val * (R / 2 ^ 43) < 1 / 2 → ConvexMesh (exactMesh m) → NormalsAgree (exactMesh m) →
      (∀ p ∈ m.Triangles, OffLimit (m.heap p).V1.Normal.X.val) →
      ClearSlice (R / 2 ^ 43) (exactMesh m) (sliceMiddle (gridPart mbb scale dim ⟨K1.dimX, K1.dimY, K1.dimZ⟩ ⟨0, 0, 0⟩) k.Z) →
      (∀ v, AroundUpTo (gridPart mbb scale dim ⟨K1.dimX, K1.dimY, K1.dimZ⟩ ⟨0, 0, 0⟩) 1 (R / 2 ^ 43) k.X k.Y k.Z v →
        InSolid (exactMesh m) v) → tile.white.has l = true) := by
  obtain ⟨L, eL, hL, tL⟩ := ieee_tile hj hb hs hn hnx hny hnz h
  obtain ⟨L1, eL1, hL1, -⟩ := ieee_tile hj hb hs hn (by norm_num) (by norm_num) (by norm_num) h1
  have h000 : (⟨0, 0, 0⟩ : Key) ∈ tileIndices 1 1 1 := by decide
  obtain ⟨o, ho, e⟩ := tL t ht _ htile
  obtain ⟨⟨px, -, bx⟩, ⟨py, -, by_⟩, ⟨pz, -, bz⟩⟩ := layout_bounds hj hs hb (by norm_num) (by norm_num) (by norm_num) eL1 h000
  dsimp only at bx by_ bz
  rw [Int.zero_mul] at bx by_ bz
  rw [hL1.dimX] at hx
  rw [hL1.dimY] at hy
  rw [hL1.dimZ] at hz
  rw [hL1.dimX, hL1.dimY, hL1.dimZ] at hg ⊢
  rw [hL.dimX, hL.dimY, hL.dimZ] at hl hk
  rw [e]
  exact dice_convex_f64 eL eL1 hnx hny hnz hj.wide hj.dim0 hj.dim1 ⟨px, by omega⟩ ⟨py, by omega⟩ ⟨pz, by omega⟩ hx hy hz hg
    ht ho hl hk

end

/-! ## The tetrahedron in full float64 -/

/-- A finite number of moderate size as a full float64. -/
def ieee (x : F64) : Ieee := Ieee.round false x.val

theorem ieee_is {x : F64} (h : |x.val| ≤ 2 ^ 200) : Is x (ieee x) := by
  have := (isP_round false h (by norm_num)).1
  have e : of x.val = x := F64.ext x.rep
  rwa [e] at this

/-- A point. -/
def ieeeVec (p : Vec F64) : Vec Ieee := ⟨ieee p.X, ieee p.Y, ieee p.Z⟩

theorem ieeeVec_is {p : Vec F64} (h : PointWithin (2 ^ 200) p) : IsVec p (ieeeVec p) :=
  ⟨ieee_is h.1, ieee_is h.2.1, ieee_is h.2.2⟩

theorem _root_.StlDice.Spec.PointWithin.mono {R S : ℚ} {p : Vec F64} (h : PointWithin R p) (hRS : R ≤ S) : PointWithin S p :=
  ⟨h.1.trans hRS, h.2.1.trans hRS, h.2.2.trans hRS⟩

/-- A mesh. -/
def ieeeMesh (m : Mesh F64) : Mesh Ieee where
  heap i := ⟨⟨ieeeVec (m.heap i).V1.Position, ieeeVec (m.heap i).V1.Normal⟩,
    ⟨ieeeVec (m.heap i).V2.Position, ieeeVec (m.heap i).V2.Normal⟩,
    ⟨ieeeVec (m.heap i).V3.Position, ieeeVec (m.heap i).V3.Normal⟩⟩
  Triangles := m.Triangles

instance (R : ℚ) (p : Vec F64) : Decidable (PointWithin R p) := by unfold PointWithin; infer_instance

theorem tetra_job : ModerateJob 3 unitBox (ofInt 1) 4 tetra where
  wide := by decide +kernel
  dim0 := by norm_num
  dim1 := by norm_num
  reach := by norm_num
  lo := by
    refine le_trans (b := 1) (by norm_num) ?_
    decide +kernel
  hi := by
    refine le_trans (b := 8) ?_ (by norm_num)
    decide +kernel
  grid := by
    refine le_trans (b := 16) ?_ (by norm_num)
    decide +kernel
  box := by decide +kernel
  up := by decide +kernel
  points := by decide +kernel
  normals := by
    have h : ∀ p ∈ tetra.Triangles, PointWithin 1 (tetra.heap p).V1.Normal := by decide +kernel
    exact fun p hp => (h p hp).mono (one_le_pow₀ (by norm_num))

theorem tetra_ieee : IsMesh tetra (ieeeMesh tetra) := by
  have h : (3 : ℚ) ≤ 2 ^ 200 := le_trans (by norm_num : (3 : ℚ) ≤ 2 ^ 2) (pow_le_pow_right₀ (by norm_num) (by norm_num))
  refine ⟨rfl, fun p hp => ?_, fun p hp => ieeeVec_is (tetra_job.normals p hp)⟩
  obtain ⟨a, c, d⟩ := tetra_job.points p hp
  exact ⟨ieeeVec_is (a.mono h), ieeeVec_is (c.mono h), ieeeVec_is (d.mono h)⟩

theorem unitBox_ieee : IsBox unitBox ⟨ieeeVec unitBox.Min, ieeeVec unitBox.Max⟩ := by
  have h : (3 : ℚ) ≤ 2 ^ 200 := le_trans (by norm_num : (3 : ℚ) ≤ 2 ^ 2) (pow_le_pow_right₀ (by norm_num) (by norm_num))
  exact ⟨ieeeVec_is (tetra_job.box.1.mono h), ieeeVec_is (tetra_job.box.2.mono h)⟩

/-- The tetrahedron diced into eight tiles in full float64. -/
example {K K1 : Layout Ieee} (h : layout ⟨ieeeVec unitBox.Min, ieeeVec unitBox.Max⟩ (ofInt 1) 4 2 2 2 = .ok K)
    (h1 : layout ⟨ieeeVec unitBox.Min, ieeeVec unitBox.Max⟩ (ofInt 1) 4 1 1 1 = .ok K1) {whole : BinVOX Ieee}
    (hw : VoxelizeRun (tileModel K1 ⟨ieeeVec unitBox.Min, ieeeVec unitBox.Max⟩ ⟨0, 0, 0⟩) (ieeeMesh tetra) (.ok whole))
    {t : Key} (ht : t ∈ tileIndices 2 2 2) {tile : BinVOX Ieee}
    (htile : VoxelizeRun (tileModel K ⟨ieeeVec unitBox.Min, ieeeVec unitBox.Max⟩ t) (ieeeMesh tetra) (.ok tile))
    {l : Key} (hl : InDims K.dimX K.dimY K.dimZ l) :
    tile.white.has l = true ↔ whole.white.has (l.shift (t.X * K.dimX) (t.Y * K.dimY) (t.Z * K.dimZ)) = true := by
  obtain ⟨L1, eL1, hL1, -⟩ := ieee_tile tetra_job unitBox_ieee isP_one.1 tetra_ieee (by norm_num) (by norm_num) (by norm_num) h1
  have e : L1.dimX = 4 ∧ L1.dimY = 4 ∧ L1.dimZ = 4 := by
    obtain ⟨_, _, _, _, _, _, ev, -, ex, ey, ez, fx, fy, fz, -⟩ := layout_ok eL1
    rw [fx, fy, fz, ex, ey, ez, ev]
    decide +kernel
  obtain ⟨e1, e2, e3⟩ := e
  have f1 : K1.dimX = 4 := hL1.dimX.trans e1
  have f2 : K1.dimY = 4 := hL1.dimY.trans e2
  have f3 : K1.dimZ = 4 := hL1.dimZ.trans e3
  exact dice_ieee_same_voxels (R := 3) tetra_job unitBox_ieee isP_one.1 tetra_ieee (by norm_num) (by norm_num) (by norm_num) h h1
    (by rw [f1]; decide +kernel) (by rw [f2]; decide +kernel) (by rw [f3]; decide +kernel) (by rw [f1, f2, f3]; exact tetra_general)
    hw ht htile hl

/-- The layouts of this job exist. -/
example : ∃ K : Layout Ieee, layout ⟨ieeeVec unitBox.Min, ieeeVec unitBox.Max⟩ (ofInt 1) 4 2 2 2 = .ok K := by
  rcases layout_ieee tetra_job unitBox_ieee (scale' := ofInt 1) isP_one.1 (nx := 2) (ny := 2) (nz := 2) (by norm_num) (by norm_num)
    (by norm_num) with ⟨e, -⟩ | ⟨L, K, -, h, -⟩
  · exact absurd e (by decide +kernel)
  · exact ⟨K, h⟩

/-- The grid of the tetrahedron in full float64. -/
def ieeeModel (b : BinVOX F64) : BinVOX Ieee :=
  ⟨b.NX, b.NY, b.NZ, ieee b.TX, ieee b.TY, ieee b.TZ, ieee b.Scale, b.WhiteVoxels, none⟩

theorem tetra_moderate : ModerateVox 3 tetraGrid tetra where
  reach := le_trans (by norm_num : (3 : ℚ) ≤ 2 ^ 2) (pow_le_pow_right₀ (by norm_num) (by norm_num))
  lo := by
    refine le_trans (b := 1) (by norm_num) ?_
    decide +kernel
  hi := by
    refine le_trans (b := 8) ?_ (by norm_num)
    decide +kernel
  grid := by
    refine le_trans (b := 16) ?_ (by norm_num)
    decide +kernel
  dim := by decide
  corner := by decide +kernel
  points := tetra_job.points
  normals := tetra_job.normals

theorem tetraGrid_ieee : IsModel tetraGrid (ieeeModel tetraGrid) := by
  have hc : (ieeeModel tetraGrid).color.map Prod.fst = tetraGrid.color.map Prod.fst := rfl
  have h : (3 : ℚ) ≤ 2 ^ 200 := le_trans (by norm_num : (3 : ℚ) ≤ 2 ^ 2) (pow_le_pow_right₀ (by norm_num) (by norm_num))
  have c := tetra_moderate.corner
  have s : |tetraGrid.Scale.val| ≤ 3 := by decide +kernel
  generalize tetraGrid = g at *
  exact ⟨rfl, rfl, rfl, ieee_is (c.1.trans h), ieee_is (c.2.1.trans h), ieee_is (c.2.2.trans h), ieee_is (s.trans h), rfl, hc⟩

/-- The tetrahedron voxelized in full float64 and in exact arithmetic. -/
example : ∃ (out : BinVOX Ieee) (o : BinVOX ℚ), VoxelizeRun (ieeeModel tetraGrid) (ieeeMesh tetra) (.ok out) ∧
    VoxelizeRun (exactModel tetraGrid) (exactMesh tetra) (.ok o) ∧ ∀ k, out.white.has k = true ↔ o.white.has k = true := by
  obtain ⟨out, ho⟩ := run_ok (ieeeModel tetraGrid) (ieeeMesh tetra) (by unfold zeroDim; decide)
  obtain ⟨o, ho'⟩ := run_ok (exactModel tetraGrid) (exactMesh tetra) (by unfold zeroDim; decide)
  exact ⟨out, o, ho, ho', fun k => voxelize_ieee_exact tetraGrid_ieee tetra_ieee tetra_moderate tetraGrid_near
    (by rw [tetraGrid_exact]; exact tetra_general) ho ho' k⟩

end StlDice
