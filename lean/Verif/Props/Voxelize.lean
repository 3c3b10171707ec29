import Verif.Lemmas.FloodFill

/-! # Voxelization (C29, C30, C32, C33) -/

namespace StlDice
open Spec GoFloat BinVOX

variable {F : Type}

/-- **C30/C33.** For every mesh, every float semantics and every schedule of the row goroutines
    `VoxelizeZ` ends without error and stores exactly the filled cells of the slice. -/
theorem voxelizeZ_exact [GoFloat F] (b : BinVOX F) (m : Mesh F) (zi : Int) (hd : ¬ zeroDim b)
    (out : Res (BinVOX F)) (h : VoxelizeZRun b m zi out) :
    ∃ b' : BinVOX F, out = .ok b' ∧ b' = { b with WhiteVoxels := b'.WhiteVoxels } ∧
      GoMap.WF b'.white ∧
      ∀ k, b'.white.has k = true ↔ k.Z = zi ∧ Filled b m zi k.Y k.X := by
  unfold VoxelizeZRun at h
  rw [if_neg hd] at h
  obtain ⟨ev, hi, rfl⟩ := h
  refine ⟨_, rfl, rfl, foldl_setVoxel_WF ev [] GoMap.WF_nil, ?_⟩
  intro k
  show GoMap.has (ev.foldl setVoxel []) k = true ↔ _
  rw [foldl_setVoxel_has, interleave_mem hi, sliceRows_mem]
  simp

/-- **C30/C33.** For every mesh, every float semantics and every schedule of the slice and row
    goroutines `Voxelize` ends without error and stores exactly the filled cells of all slices. -/
theorem voxelize_exact [GoFloat F] (b : BinVOX F) (m : Mesh F) (hd : ¬ zeroDim b)
    (out : Res (BinVOX F)) (h : VoxelizeRun b m out) :
    ∃ b' : BinVOX F, out = .ok b' ∧ b' = { b with WhiteVoxels := b'.WhiteVoxels } ∧
      GoMap.WF b'.white ∧
      ∀ k, b'.white.has k = true ↔ 0 ≤ k.Z ∧ k.Z < b.NZ ∧ Filled b m k.Z k.Y k.X := by
  unfold VoxelizeRun at h
  rw [if_neg hd] at h
  obtain ⟨ev, hi, rfl⟩ := h
  refine ⟨_, rfl, rfl, foldl_setVoxel_WF ev [] GoMap.WF_nil, ?_⟩
  intro k
  show GoMap.has (ev.foldl setVoxel []) k = true ↔ _
  rw [foldl_setVoxel_has, interleave_mem hi]
  simp only [GoMap.has_nil, Bool.false_eq_true, false_or, List.mem_flatMap]
  constructor
  · rintro ⟨r, ⟨zi, hz, hr⟩, hk⟩
    rw [mem_intRange] at hz
    obtain ⟨h1, h2⟩ := (sliceRows_mem b m zi k).mp ⟨r, hr, hk⟩
    subst h1
    exact ⟨hz.1, by omega, h2⟩
  · rintro ⟨h1, h2, h3⟩
    obtain ⟨r, hr, hk⟩ := (sliceRows_mem b m k.Z k).mpr ⟨rfl, h3⟩
    exact ⟨r, ⟨k.Z, (mem_intRange _ _ _).mpr ⟨h1, by omega⟩, hr⟩, hk⟩

/-- **C30.** Under every schedule of the goroutines of both calls, `Voxelize` stores a voxel iff
    `VoxelizeZ` on that voxel's slice does and the slice is one of the `NZ` requested ones. -/
theorem voxelize_union_of_slices [GoFloat F] (b b' : BinVOX F) (m : Mesh F) (hd : ¬ zeroDim b)
    (h : VoxelizeRun b m (.ok b')) (slice : Int → BinVOX F)
    (hs : ∀ zi, VoxelizeZRun b m zi (.ok (slice zi))) (k : Key) :
    b'.white.has k = true ↔ ∃ zi, 0 ≤ zi ∧ zi < b.NZ ∧ (slice zi).white.has k = true := by
  obtain ⟨c, hc, _, _, hk⟩ := voxelize_exact b m hd _ h
  injection hc with hc
  subst hc
  rw [hk]
  have hz : ∀ zi, (slice zi).white.has k = true ↔ k.Z = zi ∧ Filled b m zi k.Y k.X := by
    intro zi
    obtain ⟨c, hc, _, _, hk⟩ := voxelizeZ_exact b m zi hd _ (hs zi)
    injection hc with hc
    rw [hc]
    exact hk k
  constructor
  · rintro ⟨h1, h2, h3⟩
    exact ⟨k.Z, h1, h2, (hz _).mpr ⟨rfl, h3⟩⟩
  · rintro ⟨zi, h1, h2, h3⟩
    obtain ⟨h4, h5⟩ := (hz _).mp h3
    subst h4
    exact ⟨h1, h2, h5⟩

/-- Both functions have a terminating schedule, and reject exactly the zero dimensions. -/
theorem voxelize_defined [GoFloat F] (b : BinVOX F) (m : Mesh F) :
    (∃ out, VoxelizeRun b m out) ∧ (∀ zi, ∃ out, VoxelizeZRun b m zi out) ∧
      (∀ out, VoxelizeRun b m out → (out = .err ↔ b.NX = 0 ∨ b.NY = 0 ∨ b.NZ = 0)) ∧
      (∀ zi out, VoxelizeZRun b m zi out → (out = .err ↔ b.NX = 0 ∨ b.NY = 0 ∨ b.NZ = 0)) := by
  refine ⟨?_, ?_, ?_, ?_⟩
  · unfold VoxelizeRun
    by_cases h : zeroDim b
    · exact ⟨.err, by rw [if_pos h]⟩
    · obtain ⟨ev, hev⟩ := interleave_exists ((intRange 0 b.NZ).flatMap (sliceRows b m))
      exact ⟨_, by rw [if_neg h]; exact ⟨ev, hev, rfl⟩⟩
  · intro zi
    unfold VoxelizeZRun
    by_cases h : zeroDim b
    · exact ⟨.err, by rw [if_pos h]⟩
    · obtain ⟨ev, hev⟩ := interleave_exists (sliceRows b m zi)
      exact ⟨_, by rw [if_neg h]; exact ⟨ev, hev, rfl⟩⟩
  · intro out h
    unfold VoxelizeRun at h
    split at h
    · rename_i hz; exact ⟨fun _ => hz, fun _ => h⟩
    · rename_i hz
      obtain ⟨ev, _, rfl⟩ := h
      exact ⟨fun h => (by cases h), fun h => absurd h hz⟩
  · intro zi out h
    unfold VoxelizeZRun at h
    split at h
    · rename_i hz; exact ⟨fun _ => hz, fun _ => h⟩
    · rename_i hz
      obtain ⟨ev, _, rfl⟩ := h
      exact ⟨fun h => (by cases h), fun h => absurd h hz⟩

/-- **C29.** Whatever the mesh, the float semantics and the schedule, every voxel `Voxelize` stores
    has `0 ≤ y < NY`, `0 ≤ z < NZ` and `x < NX`; if `x < 0` then the voxel is touched by a triangle
    (the inside is filled only from `x = 0` on). -/
theorem voxelize_in_region [GoFloat F] (b b' : BinVOX F) (m : Mesh F)
    (h : VoxelizeRun b m (.ok b')) (k : Key) (hk : b'.white.has k = true) :
    0 ≤ k.Y ∧ k.Y < b.NY ∧ 0 ≤ k.Z ∧ k.Z < b.NZ ∧ k.X < b.NX ∧
      (k.X < 0 → ∃ p, Touches b m k.Z k.Y p k.X) := by
  have hd : ¬ zeroDim b := by
    intro hz
    unfold VoxelizeRun at h
    rw [if_pos hz] at h
    cases h
  obtain ⟨c, hc, _, _, hh⟩ := voxelize_exact b m hd _ h
  injection hc with hc
  subst hc
  obtain ⟨h1, h2, h3, h4⟩ := (hh k).mp hk
  have hy : 0 ≤ k.Y ∧ k.Y < b.NY := by
    rcases h4 with ⟨p, h⟩ | ⟨_, ⟨x', p, _, h⟩, _⟩
    · exact ⟨h.2.1, h.2.2.1⟩
    · exact ⟨h.2.1, h.2.2.1⟩
  refine ⟨hy.1, hy.2, h1, h2, h3, ?_⟩
  intro hx
  rcases h4 with h | ⟨h0, _⟩
  · exact h
  · omega

/-- **C33.** Every cell of a requested row touched by a triangle is stored if it is left of the
    right border. -/
theorem voxelize_shell [GoFloat F] (b b' : BinVOX F) (m : Mesh F)
    (h : VoxelizeRun b m (.ok b')) (x y zi : Int) (p : Nat) (hz : 0 ≤ zi ∧ zi < b.NZ)
    (hx : x < b.NX) (ht : Touches b m zi y p x) : b'.white.has ⟨x, y, zi⟩ = true := by
  have hd : ¬ zeroDim b := by
    intro hz
    unfold VoxelizeRun at h
    rw [if_pos hz] at h
    cases h
  obtain ⟨c, hc, _, _, hh⟩ := voxelize_exact b m hd _ h
  injection hc with hc
  subst hc
  exact (hh _).mpr ⟨hz.1, hz.2, hx, Or.inl ⟨p, ht⟩⟩

/-- The two cells containing the end points of every triangle's intersection with the slice plane
    are touched (and hence stored) when their row is requested: end points are not lost by the
    rasteriser. -/
theorem endpoints_touched [GoFloat F] (b : BinVOX F) (m : Mesh F) (zi : Int) (p : Nat) (q : Pair F)
    (hp : p ∈ m.Triangles)
    (hq : intersectTriZPlane p (m.heap p) (sliceHeight b zi) = some q)
    (v : Vec F) (hv : v = q.v1 ∨ v = q.v2)
    (hy : 0 ≤ gridCoord b.VoxelsPerMM v.Y b.TY ∧ gridCoord b.VoxelsPerMM v.Y b.TY < b.NY) :
    Touches b m zi (gridCoord b.VoxelsPerMM v.Y b.TY) p (gridCoord b.VoxelsPerMM v.X b.TX) := by
  refine ⟨hp, hy.1, hy.2, q, hq, ?_⟩
  unfold pairPoints
  have hl := raster_line (gridCoord b.VoxelsPerMM q.v1.X b.TX) (gridCoord b.VoxelsPerMM q.v1.Y b.TY)
    (gridCoord b.VoxelsPerMM q.v2.X b.TX) (gridCoord b.VoxelsPerMM q.v2.Y b.TY)
  rcases hv with rfl | rfl
  · exact List.mem_of_mem_head? hl.first
  · exact List.mem_of_mem_getLast? hl.last

/-- **C33.** Exact arithmetic: a triangle counts as an entry iff its first vertex normal points to
    smaller x and as an exit iff it points to larger x (with a tolerance of 1e-9). -/
theorem crossing_rat (m : Mesh ℚ) (p : Nat) :
    crossing m p = if (m.heap p).V1.Normal.X < -(1 / 1000000000) then 1
      else if 1 / 1000000000 < (m.heap p).V1.Normal.X then -1 else 0 := by
  unfold crossing
  generalize m.heap p = t
  obtain ⟨⟨_, ⟨nx, ny, nz⟩⟩, _, _⟩ := t
  dsimp only
  show (if decide ((1 / 1000000000 : ℚ) < nx * ((-1 : Int) : ℚ) + ny * ((0 : Int) : ℚ) + nz * ((0 : Int) : ℚ)) = true
    then (1 : Int) else if decide (nx * ((-1 : Int) : ℚ) + ny * ((0 : Int) : ℚ) + nz * ((0 : Int) : ℚ) <
      -(1 / 1000000000 : ℚ)) = true then -1 else 0) = _
  push_cast
  simp only [decide_eq_true_eq]
  have e : nx * -1 + ny * 0 + nz * 0 = -nx := by ring
  rw [e]
  have h1 : (1 / 1000000000 : ℚ) < -nx ↔ nx < -(1 / 1000000000) := by constructor <;> intro h <;> linarith
  have h2 : -nx < -(1 / 1000000000 : ℚ) ↔ 1 / 1000000000 < nx := by constructor <;> intro h <;> linarith
  simp only [h1, h2]

/-! ## Examples: two walls -/

/-- Two walls 1 mm and 3 mm from the origin, facing away from each other: the inside between them is filled. -/
def wallMesh : Mesh ℚ where
  heap i :=
    let tri (x n y1 z1 y2 z2 y3 z3 : ℚ) : Triangle ℚ := ⟨⟨⟨x, y1, z1⟩, ⟨n, 0, 0⟩⟩, ⟨⟨x, y2, z2⟩, ⟨n, 0, 0⟩⟩, ⟨⟨x, y3, z3⟩, ⟨n, 0, 0⟩⟩⟩
    [tri (1 / 2) (-1) 0 0 4 0 4 4, tri (1 / 2) (-1) 0 0 4 4 0 4, tri (5 / 2) 1 0 0 4 4 4 0].getD i (tri (5 / 2) 1 0 0 0 4 4 4)
  Triangles := [0, 1, 2, 3]

/-- A region of 4 x 4 x 4 voxels of 1 mm. -/
def wallGrid : BinVOX ℚ := BinVOX.New 4 4 4 0 0 0 4 false

theorem wall_run : ∃ b', VoxelizeRun wallGrid wallMesh (.ok b') := by
  obtain ⟨out, h⟩ := (voxelize_defined wallGrid wallMesh).1
  obtain ⟨b', hb, _⟩ := voxelize_exact _ _ (by decide) _ h
  exact ⟨b', hb ▸ h⟩

theorem wall_slice (zi : Int) : ∃ b', VoxelizeZRun wallGrid wallMesh zi (.ok b') := by
  obtain ⟨out, h⟩ := (voxelize_defined wallGrid wallMesh).2.1 zi
  obtain ⟨b', hb, _⟩ := voxelizeZ_exact _ _ _ (by decide) _ h
  exact ⟨b', hb ▸ h⟩

/-- The cell `(1, 1, 1)` between the walls is filled, the cell `(3, 1, 1)` behind them is not. -/
theorem wall_filled : Filled wallGrid wallMesh 1 1 1 ∧ ¬ Filled wallGrid wallMesh 1 1 3 := by
  constructor
  · exact ((sliceRows_mem wallGrid wallMesh 1 ⟨1, 1, 1⟩).mp (by decide +kernel)).2
  · intro h
    have := (sliceRows_mem wallGrid wallMesh 1 ⟨3, 1, 1⟩).mpr ⟨rfl, h⟩
    revert this
    decide +kernel

/-- `voxelize_exact`, `voxelizeZ_exact`, `voxelize_union_of_slices` and `voxelize_in_region` on the walls. -/
example : ∃ b', VoxelizeRun wallGrid wallMesh (.ok b') ∧ b'.white.has ⟨1, 1, 1⟩ = true ∧ b'.white.has ⟨3, 1, 1⟩ = false ∧
    ∃ slice : Int → BinVOX ℚ, (∀ zi, VoxelizeZRun wallGrid wallMesh zi (.ok (slice zi))) ∧ (slice 1).white.has ⟨1, 1, 1⟩ = true ∧
      (∃ zi, 0 ≤ zi ∧ zi < 4 ∧ (slice zi).white.has ⟨1, 1, 1⟩ = true) := by
  obtain ⟨b', h⟩ := wall_run
  choose slice hs using wall_slice
  obtain ⟨c, hc, -, -, hk⟩ := voxelize_exact _ _ (by decide) _ h
  cases hc
  have h1 : b'.white.has ⟨1, 1, 1⟩ = true := (hk ⟨1, 1, 1⟩).mpr ⟨by decide, by decide, wall_filled.1⟩
  have := voxelize_in_region _ _ _ h _ h1
  obtain ⟨z, hz, -, -, hzk⟩ := voxelizeZ_exact _ _ 1 (by decide) _ (hs 1)
  rw [Res.ok.injEq] at hz
  refine ⟨b', h, h1, ?_, slice, hs, ?_, (voxelize_union_of_slices _ _ _ (by decide) h slice hs _).mp h1⟩
  · rw [Bool.eq_false_iff]
    intro h3
    exact wall_filled.2 ((hk ⟨3, 1, 1⟩).mp h3).2.2
  · rw [hz]
    exact (hzk _).mpr ⟨rfl, wall_filled.1⟩

/-- `endpoints_touched` and `voxelize_shell` on the first wall. -/
example : ∃ b', VoxelizeRun wallGrid wallMesh (.ok b') ∧ b'.white.has ⟨0, 1, 1⟩ = true := by
  obtain ⟨b', h⟩ := wall_run
  have hq : intersectTriZPlane 0 (wallMesh.heap 0) (sliceHeight wallGrid 1) = some ⟨⟨1/2, 4, 3/2⟩, ⟨1/2, 3/2, 3/2⟩, 0⟩ := by decide +kernel
  have ht := endpoints_touched wallGrid wallMesh 1 0 _ (by decide) hq ⟨1/2, 3/2, 3/2⟩ (Or.inr rfl) (by decide +kernel)
  rw [show gridCoord wallGrid.VoxelsPerMM (⟨1/2, 3/2, 3/2⟩ : Vec ℚ).Y wallGrid.TY = 1 by decide +kernel,
    show gridCoord wallGrid.VoxelsPerMM (⟨1/2, 3/2, 3/2⟩ : Vec ℚ).X wallGrid.TX = 0 by decide +kernel] at ht
  exact ⟨b', h, voxelize_shell wallGrid b' wallMesh h 0 1 1 0 ⟨by decide, by decide⟩ (by decide) ht⟩

end StlDice
