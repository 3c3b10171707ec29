import Verif.Props.VoxelConvex
import Verif.Props.DiceFloat
import Verif.Props.Commands

/-! # Voxelize against the surface and the solid in space (C97, C98) -/

namespace StlDice
open Spec GoFloat BinVOX

theorem run_filled {F : Type} [GoFloat F] {b b' : BinVOX F} {m : Mesh F} (h : VoxelizeRun b m (.ok b')) (k : Key) :
    b'.white.has k = true ↔ 0 ≤ k.Z ∧ k.Z < b.NZ ∧ Filled b m k.Z k.Y k.X := by
  have hd : ¬ zeroDim b := by
    intro hz
    unfold VoxelizeRun at h
    rw [if_pos hz] at h
    cases h
  obtain ⟨c, hc, _, _, hh⟩ := voxelize_exact b m hd _ h
  injection hc with hc
  subst hc
  exact hh k

/-- **C97.** Whatever the mesh: each stored voxel is within one voxel of a point of the surface, or lies in its row between
    two cells that are. -/
theorem voxelize_near_surface {b b' : BinVOX ℚ} (hV : 0 < b.VoxelsPerMM) {m : Mesh ℚ} (h : VoxelizeRun b m (.ok b')) {x y z : Int}
    (hk : b'.white.has ⟨x, y, z⟩ = true) :
    (∃ v, OnSurface m v ∧ Around b 1 x y z v) ∨
      (∃ x0 x1, x0 < x ∧ x < x1 ∧ (∃ v, OnSurface m v ∧ Around b 1 x0 y z v) ∧ ∃ v, OnSurface m v ∧ Around b 1 x1 y z v) := by
  classical
  obtain ⟨-, -, -, hf⟩ := (run_filled h _).mp hk
  have near : ∀ {xc : Int} {p : Nat}, Touches b m z y p xc → ∃ v, OnSurface m v ∧ Around b 1 xc y z v := by
    intro xc p ht
    obtain ⟨v, hv, ha⟩ := touched_near hV ht
    exact ⟨v, ⟨p, ht.1, hv⟩, ha⟩
  rcases hf with ⟨p, ht⟩ | ⟨-, ⟨x1, p, hx1, ht⟩, x0, hx0, he, -⟩
  · exact .inl (near ht)
  · rcases eq_or_lt_of_le hx1 with rfl | hlt
    · exact .inl (near ht)
    · refine .inr ⟨x0, x1, hx0, hlt, ?_, near ht⟩
      unfold Enters crossings at he
      obtain ⟨q, hq⟩ := List.exists_mem_of_length_pos (lt_of_le_of_lt (Nat.zero_le _) he)
      rw [List.mem_filter, decide_eq_true_eq] at hq
      exact near hq.2.1.1

/-- **C97.** Whatever the mesh, in a slice that cuts it cleanly: each point of the surface at the height of the slice is
    within one and a half voxels of a stored voxel, or of a voxel in a row or column outside of the region. -/
theorem voxelize_covers_surface {b b' : BinVOX ℚ} (hV : 0 < b.VoxelsPerMM) {m : Mesh ℚ} (h : VoxelizeRun b m (.ok b')) {z : Int}
    (hz0 : 0 ≤ z) (hz1 : z < b.NZ) (hc : CleanSlice b m z) {v : Vec ℚ} (hv : OnSurface m v) (hz : v.Z = sliceMiddle b z) :
    ∃ x y, Around b (3 / 2) x y z v ∧ (0 ≤ y → y < b.NY → x < b.NX → b'.white.has ⟨x, y, z⟩ = true) := by
  obtain ⟨p, hp, hv⟩ := hv
  obtain ⟨x, y, ha, ht⟩ := touched_covers hV hp (hc p hp) hv hz
  exact ⟨x, y, ha, fun h0 h1 h2 => (run_filled h _).mpr ⟨hz0, hz1, h2, .inl ⟨p, ht h0 h1⟩⟩⟩

/-- **C98.** A stored voxel has a point of the solid within one voxel of its middle. -/
theorem voxelize_near_solid {b b' : BinVOX ℚ} (hV : 0 < b.VoxelsPerMM) {m : Mesh ℚ} (h : VoxelizeRun b m (.ok b')) {x y z : Int}
    (hk : b'.white.has ⟨x, y, z⟩ = true) : ∃ v, InSolid m v ∧ Around b 1 x y z v :=
  filled_near_solid hV ((run_filled h _).mp hk).2.2

/-- **C98.** A voxel of the region is stored if the solid contains all points of the slice within one voxel of its middle. -/
theorem voxelize_fills_convex {b b' : BinVOX ℚ} (hV : 0 < b.VoxelsPerMM) {m : Mesh ℚ} (hm : ConvexMesh m) (hn : NormalsAgree m)
    (h : VoxelizeRun b m (.ok b')) {x y z : Int} (hc : CleanSlice b m z) (hk : InDims b.NX b.NY b.NZ ⟨x, y, z⟩)
    (hin : ∀ v, Around b 1 x y z v → InSolid m v) : b'.white.has ⟨x, y, z⟩ = true := by
  obtain ⟨x0, x1, y0, y1, z0, z1⟩ := hk
  exact (run_filled h _).mpr ⟨z0, z1, deep_filled hV hm hn hc x0 x1 y0 y1 hin⟩

/-- **C98.** The same in float64, for a mesh in general position to the grid: a stored voxel has a point of the solid within
    one voxel of its middle, and a voxel deep inside is stored. -/
theorem voxelize_convex_f64 {R : ℚ} {b out : BinVOX F64} {m : Mesh F64} (hV : 0 < (exactModel b).VoxelsPerMM)
    (hb : NearModel R (exactModel b) b) (hg : GeneralPosition R (exactModel b) (exactMesh m)) (h : VoxelizeRun b m (.ok out))
    {x y z : Int} :
    (out.white.has ⟨x, y, z⟩ = true → ∃ v, InSolid (exactMesh m) v ∧ Around (exactModel b) 1 x y z v) ∧
    (ConvexMesh (exactMesh m) → NormalsAgree (exactMesh m) → CleanSlice (exactModel b) (exactMesh m) z →
      InDims b.NX b.NY b.NZ ⟨x, y, z⟩ → (∀ v, Around (exactModel b) 1 x y z v → InSolid (exactMesh m) v) →
      out.white.has ⟨x, y, z⟩ = true) := by
  have hd : ¬ zeroDim b := by
    intro hz
    unfold VoxelizeRun at h
    rw [if_pos hz] at h
    cases h
  obtain ⟨o, ho⟩ := (voxelize_defined (exactModel b) (exactMesh m)).1
  obtain ⟨o', rfl, -⟩ := voxelize_exact _ _ (by exact hd) _ ho
  constructor
  · intro hk
    exact voxelize_near_solid hV ho ((voxelize_f64 hb hg ho h _).mp hk)
  · intro hm hn hc hk hin
    exact (voxelize_f64 hb hg ho h _).mpr (voxelize_fills_convex hV hm hn ho hc hk hin)

/-- The square around a voxel is in the solid if its four corners are. -/
theorem square_of_corners {b : BinVOX ℚ} (hV : 0 < b.VoxelsPerMM) {m : Mesh ℚ} {x y z : Int}
    (h : ∀ dx ∈ [(-1 : ℚ), 1], ∀ dy ∈ [(-1 : ℚ), 1],
      InSolid m ⟨b.TX + (x + 1 / 2 + dx) / b.VoxelsPerMM, b.TY + (y + 1 / 2 + dy) / b.VoxelsPerMM, sliceMiddle b z⟩)
    (v : Vec ℚ) (hv : Around b 1 x y z v) : InSolid m v := by
  rw [around_iff hV] at hv
  obtain ⟨hz, hx, hy⟩ := hv
  rw [abs_le] at hx hy
  have ll := h (-1) (by simp) (-1) (by simp)
  have lr := h 1 (by simp) (-1) (by simp)
  have ul := h (-1) (by simp) 1 (by simp)
  have ur := h 1 (by simp) 1 (by simp)
  have t0 : 0 ≤ (gx b v - (x + 1 / 2) + 1) / 2 := by linarith
  have t1 : (gx b v - (x + 1 / 2) + 1) / 2 ≤ 1 := by linarith
  have s0 : 0 ≤ (gy b v - (y + 1 / 2) + 1) / 2 := by linarith
  have s1 : (gy b v - (y + 1 / 2) + 1) / 2 ≤ 1 := by linarith
  have := solid_convex (solid_convex ll lr t0 t1) (solid_convex ul ur t0 t1) s0 s1
  have e : v = along (along ⟨b.TX + ((x : ℚ) + 1 / 2 + -1) / b.VoxelsPerMM, b.TY + ((y : ℚ) + 1 / 2 + -1) / b.VoxelsPerMM, sliceMiddle b z⟩
      ⟨b.TX + ((x : ℚ) + 1 / 2 + 1) / b.VoxelsPerMM, b.TY + ((y : ℚ) + 1 / 2 + -1) / b.VoxelsPerMM, sliceMiddle b z⟩ ((gx b v - (x + 1 / 2) + 1) / 2))
      (along ⟨b.TX + ((x : ℚ) + 1 / 2 + -1) / b.VoxelsPerMM, b.TY + ((y : ℚ) + 1 / 2 + 1) / b.VoxelsPerMM, sliceMiddle b z⟩
      ⟨b.TX + ((x : ℚ) + 1 / 2 + 1) / b.VoxelsPerMM, b.TY + ((y : ℚ) + 1 / 2 + 1) / b.VoxelsPerMM, sliceMiddle b z⟩ ((gx b v - (x + 1 / 2) + 1) / 2))
      ((gy b v - (y + 1 / 2) + 1) / 2) := by
    obtain ⟨X, Y, Z⟩ := v
    dsimp only at hz
    subst hz
    unfold along gx gy
    dsimp only
    rw [Vec.mk.injEq]
    refine ⟨?_, ?_, ?_⟩
    · field_simp
      ring
    · field_simp
      ring
    · ring
  rw [e]
  exact this

/-! ## A tetrahedron -/

/-- A tetrahedron of about 15 mm. -/
def bigTetra : Mesh F64 where
  heap i :=
    let a := vtx (5 / 16) (3 / 8) (1 / 8)
    let b := vtx (61 / 4) (11 / 16) (1 / 4)
    let c := vtx (5 / 8) (245 / 16) (3 / 16)
    let d := vtx (13 / 8) (19 / 16) (245 / 16)
    let n0 : Vec F64 := ⟨lit (1 / 128), lit (1 / 256), ofInt (-1)⟩
    let n1 : Vec F64 := ⟨lit (1 / 64), ofInt (-1), lit (1 / 16)⟩
    let n2 : Vec F64 := ⟨lit (5 / 8), lit (5 / 8), lit (1 / 2)⟩
    let n3 : Vec F64 := ⟨ofInt (-1), lit (1 / 64), lit (1 / 16)⟩
    [(⟨a n0, c n0, b n0⟩ : Triangle F64), ⟨a n1, b n1, d n1⟩, ⟨b n2, c n2, d n2⟩].getD i ⟨c n3, a n3, d n3⟩
  Triangles := [0, 1, 2, 3]

/-- 16 x 16 x 16 voxels of 1 mm. -/
def bigGrid : BinVOX F64 := BinVOX.New 16 16 16 (ofInt 0) (ofInt 0) (ofInt 0) (ofInt 16) false

theorem bigGrid_pos : 0 < (exactModel bigGrid).VoxelsPerMM := by decide +kernel

theorem bigGrid_near : NearModel 64 (exactModel bigGrid) bigGrid :=
  near_exact (by decide +kernel) (by decide) (by decide) (by
    refine le_trans (zpow_le_zpow_right₀ (by norm_num) (by norm_num : (-899 : Int) ≤ 0)) ?_
    rw [zpow_zero]; decide +kernel) (by norm_num)

theorem bigTetra_general : GeneralPosition 64 (exactModel bigGrid) (exactMesh bigTetra) where
  lo := by
    refine le_trans (zpow_le_zpow_right₀ (by norm_num) (by norm_num : (-899 : Int) ≤ 0)) ?_
    rw [zpow_zero]; decide +kernel
  hi := by
    refine le_trans ?_ (zpow_le_zpow_right₀ (by norm_num) (by norm_num : (3 : Int) ≤ 899))
    decide +kernel
  nz := by decide
  corner := by decide +kernel
  top := by decide +kernel
  points := by decide +kernel
  edges := by
    have h : ∀ p ∈ bigTetra.Triangles, checkEdge 64 (exactModel bigGrid)
          ((exactMesh bigTetra).heap p).V1.Position ((exactMesh bigTetra).heap p).V2.Position = true ∧
        checkEdge 64 (exactModel bigGrid)
          ((exactMesh bigTetra).heap p).V2.Position ((exactMesh bigTetra).heap p).V3.Position = true ∧
        checkEdge 64 (exactModel bigGrid)
          ((exactMesh bigTetra).heap p).V3.Position ((exactMesh bigTetra).heap p).V1.Position = true := by decide +kernel
    intro p hp
    obtain ⟨a, c, d⟩ := h p hp
    exact ⟨checkEdge_ok a, checkEdge_ok c, checkEdge_ok d⟩
  normals := by decide +kernel

/-- The corners of a mesh, listed. -/
def cornerList (m : Mesh ℚ) : List (Vec ℚ) :=
  m.Triangles.flatMap fun p => [(m.heap p).V1.Position, (m.heap p).V2.Position, (m.heap p).V3.Position]

theorem corner_iff {m : Mesh ℚ} {v : Vec ℚ} : Corner m v ↔ v ∈ cornerList m := by
  unfold Corner CornerOf cornerList
  simp only [List.mem_flatMap, List.mem_cons, List.not_mem_nil, or_false]

theorem bigTetra_convex : ConvexMesh (exactMesh bigTetra) where
  closed := (closed_iff_perm _).mpr (by decide +kernel)
  proper := by decide +kernel
  convex := by
    intro p hp v hv
    rw [corner_iff] at hv
    revert v
    revert p
    decide +kernel
  connected := by
    intro u v hu hv
    obtain ⟨p, hp, hu⟩ := hu
    obtain ⟨q, hq, hv⟩ := hv
    -- any two triangles share a corner
    have share : ∀ p ∈ (exactMesh bigTetra).Triangles, ∀ q ∈ (exactMesh bigTetra).Triangles,
        ∃ w ∈ cornerList (exactMesh bigTetra), (w = ((exactMesh bigTetra).heap p).V1.Position ∨ w = ((exactMesh bigTetra).heap p).V2.Position ∨
          w = ((exactMesh bigTetra).heap p).V3.Position) ∧ (w = ((exactMesh bigTetra).heap q).V1.Position ∨
          w = ((exactMesh bigTetra).heap q).V2.Position ∨ w = ((exactMesh bigTetra).heap q).V3.Position) := by decide +kernel
    obtain ⟨w, -, h1, h2⟩ := share p hp q hq
    exact .trans (.single ⟨p, hp, hu, h1⟩) (.single ⟨q, hq, h2, hv⟩)

theorem bigTetra_normals : NormalsAgree (exactMesh bigTetra) := by
  unfold NormalsAgree
  decide +kernel

theorem bigTetra_clean (z : Int) (h0 : 0 ≤ z) (h1 : z < 16) : CleanSlice (exactModel bigGrid) (exactMesh bigTetra) z := by
  have : ∀ z ∈ intRange 0 16, ∀ p ∈ (exactMesh bigTetra).Triangles,
      let t := (exactMesh bigTetra).heap p
      let h := sliceMiddle (exactModel bigGrid) z
      t.V1.Position.Z ≠ h ∧ t.V2.Position.Z ≠ h ∧ t.V3.Position.Z ≠ h ∧
        (t.V1.Position.Z < h → h < t.V2.Position.Z → flatLimit ≤ t.V2.Position.Z - t.V1.Position.Z) ∧
        (t.V2.Position.Z < h → h < t.V1.Position.Z → flatLimit ≤ t.V1.Position.Z - t.V2.Position.Z) ∧
        (t.V2.Position.Z < h → h < t.V3.Position.Z → flatLimit ≤ t.V3.Position.Z - t.V2.Position.Z) ∧
        (t.V3.Position.Z < h → h < t.V2.Position.Z → flatLimit ≤ t.V2.Position.Z - t.V3.Position.Z) ∧
        (t.V3.Position.Z < h → h < t.V1.Position.Z → flatLimit ≤ t.V1.Position.Z - t.V3.Position.Z) ∧
        (t.V1.Position.Z < h → h < t.V3.Position.Z → flatLimit ≤ t.V3.Position.Z - t.V1.Position.Z) := by decide +kernel
  exact fun p hp => this z ((mem_intRange _ _ _).mpr ⟨h0, by omega⟩) p hp

/-- The solid around voxel `(3, 3, 4)`. -/
theorem bigTetra_square (v : Vec ℚ) (hv : Around (exactModel bigGrid) 1 3 3 4 v) : InSolid (exactMesh bigTetra) v := by
  refine square_of_corners bigGrid_pos ?_ v hv
  intro dx hx dy hy
  have w : ∀ a b c d : ℚ, ∀ v : Vec ℚ, 0 ≤ a → 0 ≤ b → 0 ≤ c → 0 ≤ d → a + b + c + d = 1 →
      v.X = a * (5 / 16) + b * (61 / 4) + c * (5 / 8) + d * (13 / 8) → v.Y = a * (3 / 8) + b * (11 / 16) + c * (245 / 16) + d * (19 / 16) →
      v.Z = a * (1 / 8) + b * (1 / 4) + c * (3 / 16) + d * (245 / 16) → InSolid (exactMesh bigTetra) v := by
    intro a b c d v ha hb hc hd hs h1 h2 h3
    refine ⟨[(a, ⟨5 / 16, 3 / 8, 1 / 8⟩), (b, ⟨61 / 4, 11 / 16, 1 / 4⟩), (c, ⟨5 / 8, 245 / 16, 3 / 16⟩), (d, ⟨13 / 8, 19 / 16, 245 / 16⟩)], ?_, ?_, ?_, ?_, ?_⟩
    · intro e he
      simp only [List.mem_cons, List.not_mem_nil, or_false] at he
      rcases he with rfl | rfl | rfl | rfl
      · exact ⟨ha, corner_iff.mpr (by show (⟨5 / 16, 3 / 8, 1 / 8⟩ : Vec ℚ) ∈ _; decide +kernel)⟩
      · exact ⟨hb, corner_iff.mpr (by show (⟨61 / 4, 11 / 16, 1 / 4⟩ : Vec ℚ) ∈ _; decide +kernel)⟩
      · exact ⟨hc, corner_iff.mpr (by show (⟨5 / 8, 245 / 16, 3 / 16⟩ : Vec ℚ) ∈ _; decide +kernel)⟩
      · exact ⟨hd, corner_iff.mpr (by show (⟨13 / 8, 19 / 16, 245 / 16⟩ : Vec ℚ) ∈ _; decide +kernel)⟩
    all_goals simp only [List.map_cons, List.map_nil, List.sum_cons, List.sum_nil]; linarith
  simp only [List.mem_cons, List.not_mem_nil, or_false] at hx hy
  have pts : ∀ dx dy : ℚ, (⟨(exactModel bigGrid).TX + ((3 : Int) + 1 / 2 + dx) / (exactModel bigGrid).VoxelsPerMM,
      (exactModel bigGrid).TY + ((3 : Int) + 1 / 2 + dy) / (exactModel bigGrid).VoxelsPerMM, sliceMiddle (exactModel bigGrid) 4⟩ : Vec ℚ) =
      ⟨7 / 2 + dx, 7 / 2 + dy, 9 / 2⟩ := by
    intro dx dy
    have e1 : (exactModel bigGrid).VoxelsPerMM = 1 := by decide +kernel
    have e2 : (exactModel bigGrid).TX = 0 := by decide +kernel
    have e3 : (exactModel bigGrid).TY = 0 := by decide +kernel
    have e4 : sliceMiddle (exactModel bigGrid) 4 = 9 / 2 := by decide +kernel
    rw [e1, e2, e3, e4, Vec.mk.injEq]
    refine ⟨?_, ?_, rfl⟩ <;> push_cast <;> ring
  rw [pts]
  rcases hx with rfl | rfl <;> rcases hy with rfl | rfl
  · exact w (3261370/6930709) (822432/6930709) (1721435/13861418) (3972379/13861418) _ (by norm_num) (by norm_num) (by norm_num) (by norm_num) (by norm_num) (by norm_num) (by norm_num) (by norm_num)
  · exact w (2355578/6930709) (803328/6930709) (3578555/13861418) (3965051/13861418) _ (by norm_num) (by norm_num) (by norm_num) (by norm_num) (by norm_num) (by norm_num) (by norm_num) (by norm_num)
  · exact w (2358938/6930709) (1751456/6930709) (1683387/13861418) (3957243/13861418) _ (by norm_num) (by norm_num) (by norm_num) (by norm_num) (by norm_num) (by norm_num) (by norm_num) (by norm_num)
  · exact w (1453146/6930709) (1732352/6930709) (3540507/13861418) (3949915/13861418) _ (by norm_num) (by norm_num) (by norm_num) (by norm_num) (by norm_num) (by norm_num) (by norm_num) (by norm_num)

theorem bigTetra_run : ∃ out, VoxelizeRun bigGrid bigTetra (.ok out) := by
  obtain ⟨out, h⟩ := (voxelize_defined bigGrid bigTetra).1
  obtain ⟨b', hb, _⟩ := voxelize_exact _ _ (by decide) _ h
  exact ⟨b', hb ▸ h⟩

/-- `voxelize_convex_f64` on the tetrahedron: voxel `(3, 3, 4)` inside is stored; a stored voxel has the solid within one voxel. -/
example : ∃ out, VoxelizeRun bigGrid bigTetra (.ok out) ∧ out.white.has ⟨3, 3, 4⟩ = true ∧
    ∃ v, InSolid (exactMesh bigTetra) v ∧ Around (exactModel bigGrid) 1 3 3 4 v := by
  obtain ⟨out, h⟩ := bigTetra_run
  obtain ⟨h1, h2⟩ := voxelize_convex_f64 (x := 3) (y := 3) (z := 4) bigGrid_pos bigGrid_near bigTetra_general h
  have h3 := h2 bigTetra_convex bigTetra_normals (bigTetra_clean 4 (by decide) (by decide)) (by unfold InDims; decide) bigTetra_square
  exact ⟨out, h, h3, h1 h3⟩

/-- The theorems in exact arithmetic on the tetrahedron: the stored voxel `(3, 3, 4)`, and the voxel near the point of the
    edge from the first to the last corner in slice 4. -/
example : ∃ out, VoxelizeRun (exactModel bigGrid) (exactMesh bigTetra) (.ok out) ∧ out.white.has ⟨3, 3, 4⟩ = true ∧
    (∃ v, InSolid (exactMesh bigTetra) v ∧ Around (exactModel bigGrid) 1 3 3 4 v) ∧
    ((∃ v, OnSurface (exactMesh bigTetra) v ∧ Around (exactModel bigGrid) 1 3 3 4 v) ∨
      (∃ x0 x1, x0 < 3 ∧ 3 < x1 ∧ (∃ v, OnSurface (exactMesh bigTetra) v ∧ Around (exactModel bigGrid) 1 x0 3 4 v) ∧
        ∃ v, OnSurface (exactMesh bigTetra) v ∧ Around (exactModel bigGrid) 1 x1 3 4 v)) ∧
    ∃ x y, Around (exactModel bigGrid) (3 / 2) x y 4 ⟨5 / 16 + 70 / 243 * (21 / 16), 3 / 8 + 70 / 243 * (13 / 16), 9 / 2⟩ ∧
      (0 ≤ y → y < 16 → x < 16 → out.white.has ⟨x, y, 4⟩ = true) := by
  obtain ⟨o, ho⟩ := (voxelize_defined (exactModel bigGrid) (exactMesh bigTetra)).1
  obtain ⟨out, rfl, -⟩ := voxelize_exact _ _ (by decide) _ ho
  have h := voxelize_fills_convex bigGrid_pos bigTetra_convex bigTetra_normals ho (bigTetra_clean 4 (by decide) (by decide))
    (x := 3) (y := 3) (by unfold InDims; decide) bigTetra_square
  refine ⟨out, ho, h, voxelize_near_solid bigGrid_pos ho h, voxelize_near_surface bigGrid_pos ho h, ?_⟩
  refine voxelize_covers_surface bigGrid_pos ho (z := 4) (by decide) (by decide) (bigTetra_clean 4 (by decide) (by decide)) ⟨1, by decide, ?_⟩
    (by decide +kernel)
  exact ⟨1 - 70 / 243, 0, 70 / 243, by norm_num, le_rfl, by norm_num, by norm_num, by decide +kernel, by decide +kernel, by decide +kernel⟩

end StlDice
