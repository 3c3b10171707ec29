import Verif.Props.VoxelAccuracyFloat

/-! # Convex solids in float64, in any position (C104) -/

namespace StlDice
open Spec GoFloat BinVOX F64

/-- A mesh cut clearly at the middle of a slice is cut clearly at the height the program computes. -/
theorem clear_near {d e z h : ℚ} {m : Mesh ℚ} (hd : 0 ≤ d) (hc : ClearSlice (d + e) m z) (he : |h - z| ≤ e) : ClearSlice d m h := by
  have edge : ∀ {p q : ℚ}, ClearEdge (d + e) p q z → ClearEdge d p q h := by
    rintro p q ⟨m0, m1, up, dn⟩
    have sep : ∀ {p : ℚ}, d + e < |z - p| → d < |h - p| ∧ (p < h ↔ p < z) ∧ (h < p ↔ z < p) := by
      intro p hp
      obtain ⟨a, c⟩ := abs_le.mp he
      rcases lt_abs.mp hp with hl | hl
      · refine ⟨lt_abs.mpr (.inl (by linarith)), ⟨fun _ => by linarith, fun _ => by linarith⟩, ⟨fun _ => by linarith, fun _ => by linarith⟩⟩
      · refine ⟨lt_abs.mpr (.inr (by linarith)), ⟨fun _ => by linarith, fun _ => by linarith⟩, ⟨fun _ => by linarith, fun _ => by linarith⟩⟩
    obtain ⟨a0, a1, a2⟩ := sep m0
    obtain ⟨c0, c1, c2⟩ := sep m1
    refine ⟨a0, c0, fun x y => up (a1.mp x) (c2.mp y), fun x y => dn (c1.mp x) (a2.mp y)⟩
  intro p hp
  obtain ⟨a, c, f⟩ := hc p hp
  exact ⟨edge a, edge c, edge f⟩

/-- A clearly cut triangle with points at the height on both sides of the middle of a row touches a cell of the row. -/
theorem row_touched_f64 {R : ℚ} {b : BinVOX ℚ} {b' : BinVOX F64} {m : Mesh F64} (hn : NearModel R b b')
    (hg : InReach R b (exactMesh m)) (hVR : b.VoxelsPerMM * (R / 2 ^ 43) < 1 / 2) {zi y : Int} (h0 : 0 ≤ zi) (h1 : zi < b.NZ)
    (hc : ClearSlice (R / 2 ^ 44) (exactMesh m) (sliceHeight b' zi).val) (hy0 : 0 ≤ y) (hy1 : y < b.NY) {p : Nat} (hp : p ∈ m.Triangles)
    {u v : Vec ℚ} (hu : InTriangle ((exactMesh m).heap p) u) (hv : InTriangle ((exactMesh m).heap p) v)
    (zu : u.Z = (sliceHeight b' zi).val) (zv : v.Z = (sliceHeight b' zi).val) (l1 : gy b u ≤ y + 1 / 2) (l2 : (y : ℚ) + 1 / 2 ≤ gy b v) :
    ∃ x, Touches b' m zi y p x := by
  have fl : ∀ c : ℚ, c < y + 1 → ⌊c⌋ ≤ y := by
    intro c hc
    have : ⌊c⌋ < y + 1 := by
      rw [Int.floor_lt]
      push_cast
      linarith
    omega
  have fg : ∀ c : ℚ, (y : ℚ) ≤ c → y ≤ ⌊c⌋ := by
    intro c hc
    rw [Int.le_floor]
    linarith
  obtain ⟨q, q', hq, hq', su, -, -, ey1, ey2⟩ := clear_pair hn hg h0 h1 hc hp hu zu
  obtain ⟨r, -, hr, -, sv, -⟩ := clear_pair hn hg h0 h1 hc hp hv zv
  rw [hq] at hr
  cases hr
  rw [onSegment_along] at su sv
  obtain ⟨t, t0, t1, rfl⟩ := su
  obtain ⟨t', t0', t1', rfl⟩ := sv
  rw [gy_along] at l1 l2
  have key : (gy b q.v1 ≤ y + 1 / 2 ∧ (y : ℚ) + 1 / 2 ≤ gy b q.v2) ∨ (gy b q.v2 ≤ y + 1 / 2 ∧ (y : ℚ) + 1 / 2 ≤ gy b q.v1) := by
    generalize gy b q.v1 = f at *
    generalize gy b q.v2 = g at *
    generalize (y : ℚ) + 1 / 2 = c at *
    rcases le_total f c with hf | hf <;> rcases le_total g c with hg | hg
    · rcases eq_or_lt_of_le hf with e | e
      · exact .inr ⟨hg, e.ge⟩
      rcases eq_or_lt_of_le hg with e' | e'
      · exact .inl ⟨hf, e'.ge⟩
      exfalso
      have := convex_lt t' f g c t0' t1' e e'
      linarith
    · exact .inl ⟨hf, hg⟩
    · exact .inr ⟨hg, hf⟩
    · rcases eq_or_lt_of_le hf with e | e
      · exact .inl ⟨e.ge, hg⟩
      rcases eq_or_lt_of_le hg with e' | e'
      · exact .inr ⟨e'.ge, hf⟩
      exfalso
      have := convex_gt t f g c t0 t1 e e'
      linarith
  rw [abs_le] at ey1 ey2
  obtain ⟨x, hx⟩ := rasterLine_row (x1 := gridCoord b'.VoxelsPerMM q'.v1.X b'.TX) (y1 := gridCoord b'.VoxelsPerMM q'.v1.Y b'.TY)
    (x2 := gridCoord b'.VoxelsPerMM q'.v2.X b'.TX) (y2 := gridCoord b'.VoxelsPerMM q'.v2.Y b'.TY) (y := y) (by
      simp only [gridCoord_pos]
      rcases key with ⟨k1, k2⟩ | ⟨k1, k2⟩
      · exact .inl ⟨fl _ (by linarith), fg _ (by linarith)⟩
      · exact .inr ⟨fl _ (by linarith), fg _ (by linarith)⟩)
  exact ⟨x, hp, hy0, by rw [hn.ny]; exact hy1, q', hq', hx⟩

/-- A triangle facing left that touches a cell of the row of a voxel deep inside touches it left of the voxel (or there). -/
theorem left_of_f64 {R : ℚ} {b : BinVOX ℚ} {b' : BinVOX F64} {m : Mesh F64} (hn : NearModel R b b')
    (hg : InReach R b (exactMesh m)) (hm : ConvexMesh (exactMesh m)) {zi y x : Int} (h0 : 0 ≤ zi) (h1 : zi < b.NZ)
    (hin : ∀ v, AroundUpTo b 1 (R / 2 ^ 43) x y zi v → InSolid (exactMesh m) v) {p : Nat} {xc : Int} (ht : Touches b' m zi y p xc) :
    ((normal (triOf ((exactMesh m).heap p))).X < 0 → xc ≤ x) ∧ (0 < (normal (triOf ((exactMesh m).heap p))).X → x ≤ xc) := by
  obtain ⟨hV, -⟩ := near_vpmm hg.lo hg.hi hn.pitch
  obtain ⟨w, hw, aw⟩ := touched_near_f64 hn hg h0 h1 ht
  rw [aroundUpTo_iff hV] at aw
  obtain ⟨wz, wx, wy⟩ := aw
  have hplane := in_plane hw
  have R0 : 0 ≤ R := (abs_nonneg _).trans hg.corner.2.2
  have V0 : 0 ≤ b.VoxelsPerMM * (R / 2 ^ 43) := by positivity
  set δ := 1 + b.VoxelsPerMM * (R / 2 ^ 43) with hδ
  have δ0 : 0 ≤ δ := by linarith
  have sq : ∀ d : ℚ, |d| ≤ δ → InSolid (exactMesh m) ⟨b.TX + (x + 1 / 2 + d) / b.VoxelsPerMM, w.Y, w.Z⟩ := by
    intro d hd
    apply hin
    rw [aroundUpTo_iff hV]
    refine ⟨wz, ?_, wy⟩
    have e : gx b ⟨b.TX + ((x : ℚ) + 1 / 2 + d) / b.VoxelsPerMM, w.Y, w.Z⟩ - (x + 1 / 2) = d := by
      unfold gx
      dsimp only
      field_simp
      ring
    rw [e]
    exact hd
  have diff : ∀ d : ℚ, |d| ≤ δ → (normal (triOf ((exactMesh m).heap p))).X * (b.TX + (x + 1 / 2 + d) / b.VoxelsPerMM - w.X) ≤ 0 := by
    intro d hd
    have := solid_inner hm ht.1 (sq d hd)
    unfold vdot vsub at this hplane
    dsimp only at this hplane
    linarith
  have gw : ∀ d : ℚ, b.VoxelsPerMM * (b.TX + ((x : ℚ) + 1 / 2 + d) / b.VoxelsPerMM - w.X) = x + 1 / 2 + d - gx b w := by
    intro d
    unfold gx
    field_simp
    ring
  rw [abs_le] at wx
  constructor
  · intro hn
    have h1 := diff (-δ) (by rw [abs_neg, abs_of_nonneg δ0])
    have h2 : 0 ≤ b.TX + ((x : ℚ) + 1 / 2 + -δ) / b.VoxelsPerMM - w.X := by
      by_contra hc
      rw [not_le] at hc
      have := mul_pos_of_neg_of_neg hn hc
      linarith
    have h3 := mul_nonneg hV.le h2
    rw [gw] at h3
    have : (xc : ℚ) ≤ x := by linarith
    exact_mod_cast this
  · intro hn
    have h1 := diff δ (by rw [abs_of_nonneg δ0])
    have h2 : b.TX + ((x : ℚ) + 1 / 2 + δ) / b.VoxelsPerMM - w.X ≤ 0 := by
      by_contra hc
      rw [not_le] at hc
      have := mul_pos hn hc
      linarith
    have h3 := mul_nonneg hV.le (neg_nonneg.mpr h2)
    have h4 := gw δ
    have : (x : ℚ) ≤ xc := by linarith
    exact_mod_cast this

/-- **C104.** Every voxel deep enough inside a convex solid is stored in float64: if all points within one voxel, up to
    rounding, of its middle belong to the solid. -/
theorem deep_filled_f64 {R : ℚ} {b : BinVOX ℚ} {b' : BinVOX F64} {m : Mesh F64} (hn : NearModel R b b')
    (hg : InReach R b (exactMesh m)) (hVR : b.VoxelsPerMM * (R / 2 ^ 43) < 1 / 2) (hm : ConvexMesh (exactMesh m))
    (hna : NormalsAgree (exactMesh m)) (hno : ∀ p ∈ m.Triangles, OffLimit (m.heap p).V1.Normal.X.val) {zi y x : Int}
    (h0 : 0 ≤ zi) (h1 : zi < b.NZ) (hcm : ClearSlice (R / 2 ^ 43) (exactMesh m) (sliceMiddle b zi))
    (hx0 : 0 ≤ x) (hx1 : x < b.NX) (hy0 : 0 ≤ y) (hy1 : y < b.NY)
    (hin : ∀ v, AroundUpTo b 1 (R / 2 ^ 43) x y zi v → InSolid (exactMesh m) v) : Filled b' m zi y x := by
  classical
  obtain ⟨hV, -⟩ := near_vpmm hg.lo hg.hi hn.pitch
  have R0 : 0 ≤ R := (abs_nonneg _).trans hg.corner.2.2
  have hsl := sliceHeight_f64 hn hg h0 h1
  have hsl' : |(sliceHeight b' zi).val - sliceMiddle b zi| ≤ R / 2 ^ 44 :=
    hsl.trans (div_le_div_of_nonneg_left R0 (by norm_num) (by norm_num))
  have hc : ClearSlice (R / 2 ^ 44) (exactMesh m) (sliceHeight b' zi).val := by
    refine clear_near (by positivity) (e := R / 2 ^ 44) ?_ hsl'
    have : R / 2 ^ 44 + R / 2 ^ 44 = R / 2 ^ 43 := by ring
    rw [this]
    exact hcm
  have hz : NoCornerAt (exactMesh m) (sliceHeight b' zi).val := by
    have d0 : 0 ≤ R / 2 ^ 44 := by positivity
    rintro v ⟨p, hp, hv⟩
    obtain ⟨c1, c2, c3⟩ := hc p hp
    rcases hv with rfl | rfl | rfl
    · exact ne_of_clear d0 c1.1
    · exact ne_of_clear d0 c2.1
    · exact ne_of_clear d0 c3.1
  have cross : ∀ {p}, p ∈ m.Triangles → (crossing m p = 1 ↔ (normal (triOf ((exactMesh m).heap p))).X < 0) ∧
      (crossing m p = -1 ↔ 0 < (normal (triOf ((exactMesh m).heap p))).X) := by
    intro p hp
    rw [crossing_off (hno p hp)]
    exact crossing_of_agree hna hp
  set hgt : ℚ := (sliceHeight b' zi).val with hhgt
  set cx : ℚ := b.TX + ((x : ℚ) + 1 / 2) / b.VoxelsPerMM with hcx
  set cy : ℚ := b.TY + ((y : ℚ) + 1 / 2) / b.VoxelsPerMM with hcy
  have gpt : ∀ d d' : ℚ, |d| ≤ 1 → |d'| ≤ 1 → InSolid (exactMesh m) ⟨cx + d / b.VoxelsPerMM, cy + d' / b.VoxelsPerMM, hgt⟩ := by
    intro d d' hd hd'
    apply hin
    rw [aroundUpTo_iff hV]
    have V0 : 0 ≤ b.VoxelsPerMM * (R / 2 ^ 43) := by positivity
    refine ⟨hsl.trans (div_le_div_of_nonneg_left R0 (by norm_num) (by norm_num)), ?_, ?_⟩
    · have e : gx b ⟨cx + d / b.VoxelsPerMM, cy + d' / b.VoxelsPerMM, hgt⟩ - (x + 1 / 2) = d := by
        unfold gx
        dsimp only
        rw [hcx]
        field_simp
        ring
      rw [e]; linarith
    · have e : gy b ⟨cx + d / b.VoxelsPerMM, cy + d' / b.VoxelsPerMM, hgt⟩ - (y + 1 / 2) = d' := by
        unfold gy
        dsimp only
        rw [hcy]
        field_simp
        ring
      rw [e]; linarith
  obtain ⟨S, s, e, hS, hpts, ring⟩ := section_ring hm hz
  have hne : ∃ i, i ∈ S := by
    obtain ⟨p, hp, hs⟩ := some_section hm hz (gpt 0 0 (by norm_num) (by norm_num)) rfl
    exact ⟨p, (hS p).mpr ⟨hp, hs⟩⟩
  have hr : 0 < 1 / b.VoxelsPerMM := one_div_pos.mpr hV
  have core : Polygon.Core S s (fun p => flatNormal ((exactMesh m).heap p)) (1 / b.VoxelsPerMM) (cx, cy) := by
    intro p hp
    have hpt := ((hS p).mp hp).1
    have inner : ∀ d d' : ℚ, |d| ≤ 1 → |d'| ≤ 1 → ∀ v : ℚ × ℚ, v.1 = cx + d / b.VoxelsPerMM → v.2 = cy + d' / b.VoxelsPerMM →
        Polygon.side s (fun p => flatNormal ((exactMesh m).heap p)) p v ≤ 0 := by
      intro d d' hd hd' v h1 h2
      unfold Polygon.side
      dsimp only
      rw [side_eq (hpts p hp).1, h1, h2]
      exact solid_inner hm hpt (gpt d d' hd hd')
    refine ⟨inner 1 0 (by norm_num) (by norm_num) _ rfl ?_, inner (-1) 0 (by norm_num) (by norm_num) _ ?_ ?_,
      inner 0 1 (by norm_num) (by norm_num) _ ?_ rfl, inner 0 (-1) (by norm_num) (by norm_num) _ ?_ ?_⟩ <;> dsimp only <;> ring
  have gyc : ∀ u : ℚ × ℚ, gy b ⟨u.1, u.2, hgt⟩ - (y + 1 / 2) = b.VoxelsPerMM * (u.2 - cy) := by
    intro u
    unfold gy
    dsimp only
    rw [hcy]
    field_simp
    ring
  have gle : ∀ u : ℚ × ℚ, u.2 ≤ cy → gy b ⟨u.1, u.2, hgt⟩ ≤ y + 1 / 2 := by
    intro u hu
    have := mul_nonneg hV.le (by linarith : 0 ≤ cy - u.2)
    have := gyc u
    linarith
  have gge : ∀ u : ℚ × ℚ, cy ≤ u.2 → (y : ℚ) + 1 / 2 ≤ gy b ⟨u.1, u.2, hgt⟩ := by
    intro u hu
    have := mul_nonneg hV.le (by linarith : 0 ≤ u.2 - cy)
    have := gyc u
    linarith
  -- the wall on the left and the wall on the right
  obtain ⟨i, hi, ni, i1, i2⟩ := Polygon.covers_left ring hr core hne
  obtain ⟨j, hj, nj, j1, j2⟩ := Polygon.covers_right ring hr core hne
  have hit : i ∈ m.Triangles := ((hS i).mp hi).1
  have hjt : j ∈ m.Triangles := ((hS j).mp hj).1
  obtain ⟨xi, ti⟩ := row_touched_f64 hn hg hVR h0 h1 hc hy0 hy1 hit (hpts i hi).1 (hpts i hi).2 rfl rfl (gle _ i1) (gge _ i2)
  obtain ⟨xj, tj⟩ := row_touched_f64 hn hg hVR h0 h1 hc hy0 hy1 hjt (hpts j hj).2 (hpts j hj).1 rfl rfl (gle _ j1) (gge _ j2)
  have left := fun {p : Nat} {xc : Int} (ht : Touches b' m zi y p xc) => left_of_f64 hn hg hm h0 h1 hin ht
  have lj := (left tj).2 nj
  refine ⟨by rw [hn.nx]; exact hx1, ?_⟩
  by_cases htx : ∃ p, Touches b' m zi y p x
  · exact .inl htx
  refine .inr ⟨hx0, ⟨xj, j, lj, tj⟩, ?_⟩
  -- triangles facing right touch the row only right of the voxel
  have noleave : ∀ x1 < x, crossings m.Triangles (Touches b' m zi y) (crossing m) (-1) x1 = 0 := by
    intro x1 hx1
    unfold crossings
    rw [List.length_eq_zero_iff, List.filter_eq_nil_iff]
    intro p hp hd
    rw [decide_eq_true_eq] at hd
    have hp' := List.mem_dedup.mp hp
    have := (left hd.1.1).2 ((cross hp').2.mp hd.2)
    omega
  obtain ⟨x0, hx0i, hf⟩ := first_touch ti
  have hlt : x0 < x := by
    have h1 := (left hf.1).1 ni
    rcases eq_or_lt_of_le h1 with h2 | h2
    · exact absurd ⟨i, h2 ▸ hf.1⟩ htx
    · exact h2
  refine ⟨x0, hlt, ?_, ?_⟩
  · unfold Enters
    rw [noleave x0 hlt]
    unfold crossings
    apply List.length_pos_of_mem (a := i)
    rw [List.mem_filter, decide_eq_true_eq]
    exact ⟨List.mem_dedup.mpr hit, hf, (cross hit).1.mpr ni⟩
  · intro x1 _ h2 hl
    unfold Leaves at hl
    rw [noleave x1 h2] at hl
    omega

/-- **C104.** In float64, whatever the position of the mesh to the grid, in a slice that cuts a convex mesh clearly: a voxel
    of the region is stored if the solid contains all points within one voxel, up to rounding, of its middle. -/
theorem voxelize_fills_convex_f64 {R : ℚ} {b : BinVOX ℚ} {b' out : BinVOX F64} {m : Mesh F64} (hn : NearModel R b b')
    (hg : InReach R b (exactMesh m)) (hVR : b.VoxelsPerMM * (R / 2 ^ 43) < 1 / 2) (hm : ConvexMesh (exactMesh m))
    (hna : NormalsAgree (exactMesh m)) (hno : ∀ p ∈ m.Triangles, OffLimit (m.heap p).V1.Normal.X.val)
    (h : VoxelizeRun b' m (.ok out)) {x y z : Int} (hc : ClearSlice (R / 2 ^ 43) (exactMesh m) (sliceMiddle b z))
    (hk : InDims b.NX b.NY b.NZ ⟨x, y, z⟩) (hin : ∀ v, AroundUpTo b 1 (R / 2 ^ 43) x y z v → InSolid (exactMesh m) v) :
    out.white.has ⟨x, y, z⟩ = true := by
  obtain ⟨x0, x1, y0, y1, z0, z1⟩ := hk
  exact (run_filled h _).mpr ⟨z0, by rw [hn.nz]; exact z1, deep_filled_f64 hn hg hVR hm hna hno z0 z1 hc x0 x1 y0 y1 hin⟩

/-! ## The box on the grid -/

/-- The box of `dice_f64_loses`. -/
abbrev boxQ : Mesh ℚ := exactMesh (boxMesh (15 / 2) 15 15)

theorem box_convex : ConvexMesh boxQ where
  closed := (closed_iff_perm _).mpr (by decide +kernel)
  proper := by decide +kernel
  convex := by
    intro p hp v hv
    rw [corner_iff] at hv
    revert v
    revert p
    decide +kernel
  connected := by
    intro u v hu hv
    obtain ⟨p, hp, hu⟩ := hu
    obtain ⟨q, hq, hv⟩ := hv
    have share : ∀ p ∈ boxQ.Triangles, ∀ q ∈ boxQ.Triangles, ∃ r ∈ boxQ.Triangles,
        ∃ w ∈ cornerList boxQ, ∃ w' ∈ cornerList boxQ,
          (w = (boxQ.heap p).V1.Position ∨ w = (boxQ.heap p).V2.Position ∨ w = (boxQ.heap p).V3.Position) ∧
          (w = (boxQ.heap r).V1.Position ∨ w = (boxQ.heap r).V2.Position ∨ w = (boxQ.heap r).V3.Position) ∧
          (w' = (boxQ.heap r).V1.Position ∨ w' = (boxQ.heap r).V2.Position ∨ w' = (boxQ.heap r).V3.Position) ∧
          (w' = (boxQ.heap q).V1.Position ∨ w' = (boxQ.heap q).V2.Position ∨ w' = (boxQ.heap q).V3.Position) := by decide +kernel
    obtain ⟨r, hr, w, -, w', -, h1, h2, h3, h4⟩ := share p hp q hq
    exact .trans (.trans (.single ⟨p, hp, hu, h1⟩) (.single ⟨r, hr, h2, h3⟩)) (.single ⟨q, hq, h4, hv⟩)

theorem box_normals : NormalsAgree boxQ := by
  unfold NormalsAgree
  decide +kernel

theorem corner_solid {m : Mesh ℚ} {v : Vec ℚ} (h : Corner m v) : InSolid m v :=
  ⟨[(1, v)], by simp [h], by simp, by simp, by simp, by simp⟩

theorem box_solid {v : Vec ℚ} (x0 : 0 ≤ v.X) (x1 : v.X ≤ 15 / 2) (y0 : 0 ≤ v.Y) (y1 : v.Y ≤ 15) (z0 : 0 ≤ v.Z) (z1 : v.Z ≤ 15) :
    InSolid boxQ v := by
  have c : ∀ x ∈ [(0 : ℚ), 15 / 2], ∀ y ∈ [(0 : ℚ), 15], ∀ z ∈ [(0 : ℚ), 15], (⟨x, y, z⟩ : Vec ℚ) ∈ cornerList boxQ := by decide +kernel
  have cs : ∀ x ∈ [(0 : ℚ), 15 / 2], ∀ y ∈ [(0 : ℚ), 15], ∀ z ∈ [(0 : ℚ), 15], InSolid boxQ ⟨x, y, z⟩ :=
    fun x hx y hy z hz => corner_solid (corner_iff.mpr (c x hx y hy z hz))
  have lx : ∀ y ∈ [(0 : ℚ), 15], ∀ z ∈ [(0 : ℚ), 15], InSolid boxQ ⟨v.X, y, z⟩ := by
    intro y hy z hz
    have := solid_convex (cs 0 (by simp) y hy z hz) (cs (15 / 2) (by simp) y hy z hz) (s := v.X / (15 / 2)) (by positivity)
      (by rw [div_le_one (by norm_num)]; exact x1)
    unfold along at this
    dsimp only at this
    convert this using 2 <;> ring
  have ly : ∀ z ∈ [(0 : ℚ), 15], InSolid boxQ ⟨v.X, v.Y, z⟩ := by
    intro z hz
    have := solid_convex (lx 0 (by simp) z hz) (lx 15 (by simp) z hz) (s := v.Y / 15) (by positivity)
      (by rw [div_le_one (by norm_num)]; exact y1)
    unfold along at this
    dsimp only at this
    convert this using 2 <;> ring
  have := solid_convex (ly 0 (by simp)) (ly 15 (by simp)) (s := v.Z / 15) (by positivity)
    (by rw [div_le_one (by norm_num)]; exact z1)
  unfold along at this
  dsimp only at this
  convert this using 1
  obtain ⟨X, Y, Z⟩ := v
  dsimp only
  rw [Vec.mk.injEq]
  refine ⟨?_, ?_, ?_⟩ <;> ring

/-- The box is deep around voxel `(4, 10, 5)` of a grid of about 22/15 voxels per millimetre. -/
theorem box_deep {b : BinVOX ℚ} (V : 7 / 5 ≤ b.VoxelsPerMM ∧ b.VoxelsPerMM ≤ 3 / 2) (TX : b.TX = 0) (TY : b.TY = 0)
    (em : 3 ≤ sliceMiddle b 5 ∧ sliceMiddle b 5 ≤ 4) :
    ClearSlice (64 / 2 ^ 43) boxQ (sliceMiddle b 5) ∧ ∀ v, AroundUpTo b 1 (64 / 2 ^ 43) 4 10 5 v → InSolid boxQ v := by
  have g : (64 / 2 ^ 43 : ℚ) ≤ 1 / 100 := by norm_num
  constructor
  · have hc := box_clear (h := sliceMiddle b 5) (by linarith) (by linarith)
    have ends : ∀ p ∈ boxQ.Triangles,
        let t := boxQ.heap p
        (t.V1.Position.Z = 0 ∨ t.V1.Position.Z = 15) ∧ (t.V2.Position.Z = 0 ∨ t.V2.Position.Z = 15) ∧
        (t.V3.Position.Z = 0 ∨ t.V3.Position.Z = 15) := by decide +kernel
    have dist : ∀ {a : ℚ}, a = 0 ∨ a = 15 → (64 / 2 ^ 43 : ℚ) < |sliceMiddle b 5 - a| := by
      rintro a (rfl | rfl)
      · rw [abs_of_pos (by linarith)]; linarith
      · rw [abs_of_neg (by linarith)]; linarith
    intro p hp
    obtain ⟨⟨-, -, a1, a2⟩, ⟨-, -, c1, c2⟩, -, -, d1, d2⟩ := hc p hp
    obtain ⟨e1, e2, e3⟩ := ends p hp
    exact ⟨⟨dist e1, dist e2, a1, a2⟩, ⟨dist e2, dist e3, c1, c2⟩, dist e3, dist e1, d1, d2⟩
  · intro v hv
    rw [aroundUpTo_iff (by linarith)] at hv
    unfold gx gy at hv
    rw [TX, TY] at hv
    generalize b.VoxelsPerMM = W at *
    generalize sliceMiddle b 5 = mid at *
    obtain ⟨hz, hx, hy⟩ := hv
    rw [abs_le] at hz hx hy
    push_cast at hx hy
    have wg := mul_le_mul V.2 g (by norm_num) (by norm_num)
    have lo : ∀ c k : ℚ, k ≤ W * (c - 0) → 0 ≤ k → 0 ≤ c := by
      intro c k h hk
      by_contra hc
      rw [not_le] at hc
      have := mul_neg_of_pos_of_neg (by linarith : 0 < W) hc
      linarith
    have hi : ∀ c k : ℚ, W * (c - 0) ≤ 7 / 5 * k → 0 ≤ k → c ≤ k := by
      intro c k h hk
      by_contra hc
      rw [not_le] at hc
      have := mul_lt_mul_of_pos_left hc (by linarith : 0 < W)
      have := mul_le_mul_of_nonneg_right V.1 hk
      linarith
    exact box_solid (lo _ 1 (by linarith) (by norm_num)) (hi _ _ (by linarith) (by norm_num)) (lo _ 1 (by linarith) (by norm_num))
      (hi _ _ (by linarith) (by norm_num)) (by linarith) (by linarith)

theorem box_offLimit : ∀ p ∈ (boxMesh (15 / 2) 15 15).Triangles, OffLimit ((boxMesh (15 / 2) 15 15).heap p).V1.Normal.X.val := by
  have : ∀ p ∈ (boxMesh (15 / 2) 15 15).Triangles, |((boxMesh (15 / 2) 15 15).heap p).V1.Normal.X.val| = 0 ∨
      |((boxMesh (15 / 2) 15 15).heap p).V1.Normal.X.val| = 1 := by decide +kernel
  intro p hp
  unfold OffLimit flatLimit
  rcases this p hp with e | e <;> rw [e]
  · left; norm_num
  · right; norm_num

/-- Voxel `(4, 10, 5)` inside the box is stored. -/
example : ∃ out, VoxelizeRun gridOne (boxMesh (15 / 2) 15 15) (.ok out) ∧ out.white.has ⟨4, 10, 5⟩ = true := by
  obtain ⟨-, -, -, -, ⟨out, ho⟩, -⟩ := dice_f64_loses
  have V : 7 / 5 ≤ (exactModel gridOne).VoxelsPerMM ∧ (exactModel gridOne).VoxelsPerMM ≤ 3 / 2 := by decide +kernel
  have g : (64 / 2 ^ 43 : ℚ) ≤ 1 / 100 := by norm_num
  obtain ⟨hc, hin⟩ := box_deep V (by decide +kernel) (by decide +kernel) (by decide +kernel)
  refine ⟨out, ho, voxelize_fills_convex_f64 gridOne_near gridOne_reach ?_ box_convex box_normals box_offLimit ho hc ?_ hin⟩
  · have := mul_le_mul V.2 g (by norm_num) (by norm_num)
    linarith
  · have : (exactModel gridOne).NX = 22 ∧ (exactModel gridOne).NY = 22 ∧ (exactModel gridOne).NZ = 22 := by decide +kernel
    unfold InDims
    rw [this.1, this.2.1, this.2.2]
    decide

end StlDice
