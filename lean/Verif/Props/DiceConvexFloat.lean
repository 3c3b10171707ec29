import Verif.Props.VoxelConvexFloat
import Verif.Props.DiceFloat

/-! # Dicing in float64, whatever the position of the mesh (C106) -/

namespace StlDice
open Spec GoFloat BinVOX F64

/-- A mesh and a grid within reach, then so with each part of the grid. -/
theorem reach_part {mbb : Box F64} {scale : F64} {dim : Int} {R : ℚ} {m : Mesh ℚ} {n n' o : Key}
    (V0 : 0 < (dim : ℚ) / scale.val) (hn : 0 < n.X) (hn' : 0 < n'.X)
    (ho : 0 ≤ o.X ∧ 0 ≤ o.Y ∧ 0 ≤ o.Z) (hs : o.X + n'.X ≤ n.X ∧ o.Y + n'.Y ≤ n.Y ∧ o.Z + n'.Z ≤ n.Z)
    (hz : 0 ≤ n'.Y ∧ 0 ≤ n'.Z)
    (hx : |mbb.Min.X.val| + (n.X : ℚ) / (dim / scale.val) ≤ R)
    (hy : |mbb.Min.Y.val| + (n.Y : ℚ) / (dim / scale.val) ≤ R)
    (hzz : |mbb.Min.Z.val| + (n.Z : ℚ) / (dim / scale.val) ≤ R)
    (hg : InReach R (gridPart mbb scale dim n ⟨0, 0, 0⟩) m) : InReach R (gridPart mbb scale dim n' o) m := by
  have v1 := gridPart_vpmm (mbb := mbb) (n := n) (o := ⟨0, 0, 0⟩) V0 hn
  have v2 := gridPart_vpmm (mbb := mbb) (n := n') (o := o) V0 hn'
  have bound : ∀ (c : ℚ) (k l : Int), 0 ≤ k → k ≤ l → |c| + (l : ℚ) / (dim / scale.val) ≤ R →
      |c + (k : ℚ) / (dim / scale.val)| ≤ R := by
    intro c k l h0 h1 h2
    have a := abs_add_le c ((k : ℚ) / (dim / scale.val))
    have k0 : (0 : ℚ) ≤ k := by exact_mod_cast h0
    rw [abs_of_nonneg (by positivity : (0 : ℚ) ≤ (k : ℚ) / (dim / scale.val))] at a
    have : (k : ℚ) / (dim / scale.val) ≤ (l : ℚ) / (dim / scale.val) :=
      div_le_div_of_nonneg_right (by exact_mod_cast h1) V0.le
    linarith
  refine ⟨?_, ?_, ?_, ⟨bound _ _ _ ho.1 (by omega) hx, bound _ _ _ ho.2.1 (by omega) hy, bound _ _ _ ho.2.2 (by omega) hzz⟩, ?_,
    hg.points⟩
  · rw [v2, ← v1]; exact hg.lo
  · rw [v2, ← v1]; exact hg.hi
  · have : n.Z ≤ 2 ^ 50 := hg.nz
    show n'.Z ≤ 2 ^ 50
    omega
  · have := hg.top
    rw [v1] at this
    rw [v2]
    refine le_trans (div_le_div_of_nonneg_right ?_ V0.le) this
    show (n'.Z : ℚ) ≤ n.Z
    have : n'.Z ≤ n.Z := by omega
    exact_mod_cast this

/-- The middle of a voxel of a part is that of the voxel of the grid. -/
theorem part_slice {mbb : Box F64} {scale : F64} {dim : Int} {n n' o : Key} (V0 : 0 < (dim : ℚ) / scale.val) (hn : 0 < n.X)
    (hn' : 0 < n'.X) (z : Int) :
    sliceMiddle (gridPart mbb scale dim n' o) z = sliceMiddle (gridPart mbb scale dim n ⟨0, 0, 0⟩) (z + o.Z) := by
  have v1 := gridPart_vpmm (mbb := mbb) (n := n) (o := ⟨0, 0, 0⟩) V0 hn
  have v2 := gridPart_vpmm (mbb := mbb) (n := n') (o := o) V0 hn'
  unfold sliceMiddle
  rw [v1, v2]
  show mbb.Min.Z.val + (o.Z : ℚ) / (dim / scale.val) + _ = mbb.Min.Z.val + ((0 : Int) : ℚ) / (dim / scale.val) + _
  push_cast
  ring

theorem part_around {mbb : Box F64} {scale : F64} {dim : Int} {n n' o : Key} (V0 : 0 < (dim : ℚ) / scale.val) (hn : 0 < n.X)
    (hn' : 0 < n'.X) {r e : ℚ} {x y z : Int} {v : Vec ℚ} :
    AroundUpTo (gridPart mbb scale dim n' o) r e x y z v ↔
      AroundUpTo (gridPart mbb scale dim n ⟨0, 0, 0⟩) r e (x + o.X) (y + o.Y) (z + o.Z) v := by
  have v1 := gridPart_vpmm (mbb := mbb) (n := n) (o := ⟨0, 0, 0⟩) V0 hn
  have v2 := gridPart_vpmm (mbb := mbb) (n := n') (o := o) V0 hn'
  rw [aroundUpTo_iff (by rw [v2]; exact V0), aroundUpTo_iff (by rw [v1]; exact V0), part_slice V0 hn hn']
  have ex : gx (gridPart mbb scale dim n' o) v - ((x : ℚ) + 1 / 2) =
      gx (gridPart mbb scale dim n ⟨0, 0, 0⟩) v - (((x + o.X : Int) : ℚ) + 1 / 2) := by
    unfold gx
    rw [v1, v2]
    show dim / scale.val * (_ - (mbb.Min.X.val + (o.X : ℚ) / (dim / scale.val))) - _ =
        dim / scale.val * (_ - (mbb.Min.X.val + ((0 : Int) : ℚ) / (dim / scale.val))) - _
    generalize (dim : ℚ) / scale.val = V at *
    have := V0.ne'
    push_cast
    field_simp
    ring
  have ey : gy (gridPart mbb scale dim n' o) v - ((y : ℚ) + 1 / 2) =
      gy (gridPart mbb scale dim n ⟨0, 0, 0⟩) v - (((y + o.Y : Int) : ℚ) + 1 / 2) := by
    unfold gy
    rw [v1, v2]
    show dim / scale.val * (_ - (mbb.Min.Y.val + (o.Y : ℚ) / (dim / scale.val))) - _ =
        dim / scale.val * (_ - (mbb.Min.Y.val + ((0 : Int) : ℚ) / (dim / scale.val))) - _
    generalize (dim : ℚ) / scale.val = V at *
    have := V0.ne'
    push_cast
    field_simp
    ring
  rw [ex, ey, v1, v2]

/-- **C106.** A job diced in float64, whatever the position of the mesh to its grid.  Each voxel stored in a tile has a point of
    the solid within one voxel, up to rounding; and if the mesh is convex and a slice cuts it clearly, a tile stores each of
    its voxels around which the solid contains all points within one voxel, up to rounding.  All distances are on the
    grid of the undiced job. -/
theorem dice_convex_f64 {mbb : Box F64} {scale : F64} {dim nx ny nz : Int} {L L1 : Layout F64} {R : ℚ} {mesh : Mesh F64}
    (h : layout mbb scale dim nx ny nz = .ok L) (h1 : layout mbb scale dim 1 1 1 = .ok L1)
    (hnx : 0 < nx) (hny : 0 < ny) (hnz : 0 < nz) (hs0 : 0 < scale.val) (hd0 : 0 < dim) (hdim : dim ≤ 2 ^ 53)
    (mx : 0 < L1.dimX ∧ L1.dimX ≤ 2 ^ 50) (my : 0 < L1.dimY ∧ L1.dimY ≤ 2 ^ 50) (mz : 0 < L1.dimZ ∧ L1.dimZ ≤ 2 ^ 50)
    (hx : |mbb.Min.X.val| + (L1.dimX : ℚ) / (dim / scale.val) ≤ R)
    (hy : |mbb.Min.Y.val| + (L1.dimY : ℚ) / (dim / scale.val) ≤ R)
    (hz : |mbb.Min.Z.val| + (L1.dimZ : ℚ) / (dim / scale.val) ≤ R)
    (hg : InReach R (gridPart mbb scale dim ⟨L1.dimX, L1.dimY, L1.dimZ⟩ ⟨0, 0, 0⟩) (exactMesh mesh))
    {t : Key} (ht : t ∈ tileIndices nx ny nz) {tile : BinVOX F64} (htile : VoxelizeRun (tileModel L mbb t) mesh (.ok tile))
    {l k : Key} (hl : InDims L.dimX L.dimY L.dimZ l) (hk : k = l.shift (t.X * L.dimX) (t.Y * L.dimY) (t.Z * L.dimZ)) :
    (tile.white.has l = true → ∃ v, InSolid (exactMesh mesh) v ∧
      AroundUpTo (gridPart mbb scale dim ⟨L1.dimX, L1.dimY, L1.dimZ⟩ ⟨0, 0, 0⟩) 1 (R / 2 ^ 43) k.X k.Y k.Z v) ∧
    (dim / scale.val * (R / 2 ^ 43) < 1 / 2 → ConvexMesh (exactMesh mesh) → NormalsAgree (exactMesh mesh) →
      (∀ p ∈ mesh.Triangles, OffLimit (mesh.heap p).V1.Normal.X.val) →
      ClearSlice (R / 2 ^ 43) (exactMesh mesh) (sliceMiddle (gridPart mbb scale dim ⟨L1.dimX, L1.dimY, L1.dimZ⟩ ⟨0, 0, 0⟩) k.Z) →
      (∀ v, AroundUpTo (gridPart mbb scale dim ⟨L1.dimX, L1.dimY, L1.dimZ⟩ ⟨0, 0, 0⟩) 1 (R / 2 ^ 43) k.X k.Y k.Z v →
        InSolid (exactMesh mesh) v) → tile.white.has l = true) := by
  obtain ⟨_, _, _, dx0, dy0, dz0, ev, -, ex, ey, ez, fx, fy, fz, -⟩ := layout_ok h
  obtain ⟨_, _, _, _, _, _, ev1, -, ex1, ey1, ez1, fx1, fy1, fz1, -⟩ := layout_ok h1
  rw [ev] at ex ey ez
  rw [ev1] at ex1 ey1 ez1
  rw [Int.tdiv_one] at fx1 fy1 fz1
  rw [ex, ← ex1, ← fx1] at fx
  rw [ey, ← ey1, ← fy1] at fy
  rw [ez, ← ez1, ← fz1] at fz
  have axis : ∀ {M n d : Int}, 0 < M → 0 < n → d ≠ 0 → d = M.tdiv n → 0 < d ∧ ∀ i, 0 ≤ i → i < n → 0 ≤ i * d ∧ i * d + d ≤ M := by
    intro M n d hM hn hd e
    rw [Int.tdiv_eq_ediv_of_nonneg hM.le] at e
    have d0 : 0 ≤ d := by rw [e]; exact Int.ediv_nonneg hM.le hn.le
    have dp : 0 < d := by omega
    refine ⟨dp, fun i h0 h1 => ⟨Int.mul_nonneg h0 d0, ?_⟩⟩
    have a : n * d ≤ M := by rw [e]; exact Int.mul_ediv_self_le hn.ne'
    have c : (i + 1) * d ≤ n * d := Int.mul_le_mul_of_nonneg_right (by omega) d0
    rw [Int.add_mul, Int.one_mul] at c
    omega
  obtain ⟨px, ax⟩ := axis mx.1 hnx dx0 fx
  obtain ⟨py, ay⟩ := axis my.1 hny dy0 fy
  obtain ⟨pz, az⟩ := axis mz.1 hnz dz0 fz
  rw [mem_tileIndices] at ht
  obtain ⟨tx0, tx1, ty0, ty1, tz0, tz1⟩ := ht
  obtain ⟨bx0, bx1⟩ := ax t.X tx0 tx1
  obtain ⟨by0, by1⟩ := ay t.Y ty0 ty1
  obtain ⟨bz0, bz1⟩ := az t.Z tz0 tz1
  clear ax ay az axis
  have lo := hg.lo
  have hi := hg.hi
  have V0 : 0 < (dim : ℚ) / scale.val := div_pos (by exact_mod_cast hd0) hs0
  have v1 := gridPart_vpmm (mbb := mbb) (n := ⟨L1.dimX, L1.dimY, L1.dimZ⟩) (o := ⟨0, 0, 0⟩) V0 mx.1
  rw [v1] at lo hi
  have part : ∀ {c : ℚ} {k l : Int}, k ≤ l → |c| + (l : ℚ) / (dim / scale.val) ≤ R → |c| + (k : ℚ) / (dim / scale.val) ≤ R := by
    intro c k l hkl hR
    have : (k : ℚ) / (dim / scale.val) ≤ (l : ℚ) / (dim / scale.val) :=
      div_le_div_of_nonneg_right (by exact_mod_cast hkl) V0.le
    linarith
  have nT := tile_near (t := t) h (by rw [abs_of_pos hd0]; exact hdim) lo hi px ((dimOf_le_of (e := 2 ^ 53) (by omega) (by omega) (by omega)))
    ⟨⟨bx0, by omega⟩, ⟨by0, by omega⟩, ⟨bz0, by omega⟩⟩ (part (by omega) hx) (part (by omega) hy) (part (by omega) hz)
  have gT : InReach R (gridPart mbb scale dim ⟨L.dimX, L.dimY, L.dimZ⟩ ⟨t.X * L.dimX, t.Y * L.dimY, t.Z * L.dimZ⟩)
      (exactMesh mesh) :=
    reach_part V0 mx.1 px ⟨bx0, by0, bz0⟩ ⟨by show t.X * L.dimX + L.dimX ≤ L1.dimX; omega, by show t.Y * L.dimY + L.dimY ≤ L1.dimY; omega, by show t.Z * L.dimZ + L.dimZ ≤ L1.dimZ; omega⟩ ⟨py.le, pz.le⟩ hx hy hz hg
  have v2 := gridPart_vpmm (mbb := mbb) (n := ⟨L.dimX, L.dimY, L.dimZ⟩)
    (o := ⟨t.X * L.dimX, t.Y * L.dimY, t.Z * L.dimZ⟩) V0 px
  have ar : ∀ {v : Vec ℚ}, AroundUpTo (gridPart mbb scale dim ⟨L.dimX, L.dimY, L.dimZ⟩ ⟨t.X * L.dimX, t.Y * L.dimY, t.Z * L.dimZ⟩)
        1 (R / 2 ^ 43) l.X l.Y l.Z v ↔
      AroundUpTo (gridPart mbb scale dim ⟨L1.dimX, L1.dimY, L1.dimZ⟩ ⟨0, 0, 0⟩) 1 (R / 2 ^ 43) k.X k.Y k.Z v := by
    intro v
    rw [part_around (n := ⟨L1.dimX, L1.dimY, L1.dimZ⟩) V0 mx.1 px, hk]
    rfl
  constructor
  · intro hw
    obtain ⟨v, hv, ha⟩ := voxelize_near_solid_f64 (x := l.X) (y := l.Y) (z := l.Z) nT gT htile hw
    exact ⟨v, hv, ar.mp ha⟩
  · intro hVR hm hna hno hc hin
    refine voxelize_fills_convex_f64 (x := l.X) (y := l.Y) (z := l.Z) nT gT (by rw [v2]; exact hVR) hm hna hno htile ?_ ?_
      fun v hv => hin v (ar.mp hv)
    · rw [part_slice (n := ⟨L1.dimX, L1.dimY, L1.dimZ⟩) V0 mx.1 px]
      rw [hk] at hc
      exact hc
    · exact hl

/-- The job of `dice_f64_loses`, whose two tiles meet in a face of the box: its left tile stores voxel `(4, 10, 5)`, and all
    that its right tile stores is close to the box. -/
example : (∃ tile, VoxelizeRun (tileModel (lay 2) cube15 ⟨0, 0, 0⟩) (boxMesh (15 / 2) 15 15) (.ok tile) ∧
      tile.white.has ⟨4, 10, 5⟩ = true) ∧
    ∀ tile, VoxelizeRun (tileModel (lay 2) cube15 ⟨1, 0, 0⟩) (boxMesh (15 / 2) 15 15) (.ok tile) →
      tile.white.has ⟨3, 10, 5⟩ = true → ∃ v, InSolid boxQ v ∧
        AroundUpTo (gridPart cube15 (boxScale cube15) 22 ⟨22, 22, 22⟩ ⟨0, 0, 0⟩) 1 (64 / 2 ^ 43) 14 10 5 v := by
  obtain ⟨l1, l2, -⟩ := dice_f64_loses
  have D : (lay 1).dimX = 22 ∧ (lay 1).dimY = 22 ∧ (lay 1).dimZ = 22 := by decide +kernel
  have E : (lay 2).dimX = 11 ∧ (lay 2).dimY = 22 ∧ (lay 2).dimZ = 22 := by decide +kernel
  have S : 0 < (boxScale cube15).val := by decide +kernel
  have W : 7 / 5 ≤ ((22 : Int) : ℚ) / (boxScale cube15).val ∧ ((22 : Int) : ℚ) / (boxScale cube15).val ≤ 3 / 2 := by decide +kernel
  have M : cube15.Min.X.val = 0 ∧ cube15.Min.Y.val = 0 ∧ cube15.Min.Z.val = 0 := by decide +kernel
  have v := gridPart_vpmm (mbb := cube15) (scale := boxScale cube15) (dim := 22) (n := ⟨22, 22, 22⟩) (o := ⟨0, 0, 0⟩) (by linarith) (by decide)
  have q : ((22 : Int) : ℚ) / (((22 : Int) : ℚ) / (boxScale cube15).val) ≤ 64 := by
    rw [div_le_iff₀ (by linarith)]
    push_cast at *
    linarith
  have g : (64 / 2 ^ 43 : ℚ) ≤ 1 / 100 := by norm_num
  have reach : InReach 64 (gridPart cube15 (boxScale cube15) 22 ⟨22, 22, 22⟩ ⟨0, 0, 0⟩) boxQ := by
    refine ⟨?_, ?_, by decide, ?_, ?_, by decide +kernel⟩
    · rw [v]
      refine le_trans (zpow_le_zpow_right₀ (by norm_num) (by norm_num : (-899 : Int) ≤ 0)) ?_
      rw [zpow_zero]; linarith
    · rw [v]
      refine le_trans ?_ (zpow_le_zpow_right₀ (by norm_num) (by norm_num : (1 : Int) ≤ 899))
      rw [zpow_one]; linarith
    · refine ⟨?_, ?_, ?_⟩
      · show |cube15.Min.X.val + ((0 : Int) : ℚ) / _| ≤ 64
        rw [M.1]; simp
      · show |cube15.Min.Y.val + ((0 : Int) : ℚ) / _| ≤ 64
        rw [M.2.1]; simp
      · show |cube15.Min.Z.val + ((0 : Int) : ℚ) / _| ≤ 64
        rw [M.2.2]; simp
    · rw [v]; exact q
  have main := fun {t : Key} (ht : t ∈ tileIndices 2 1 1) {tile : BinVOX F64}
      (htile : VoxelizeRun (tileModel (lay 2) cube15 t) (boxMesh (15 / 2) 15 15) (.ok tile)) {l k : Key}
      (hl : InDims (lay 2).dimX (lay 2).dimY (lay 2).dimZ l) (hk : k = l.shift (t.X * (lay 2).dimX) (t.Y * (lay 2).dimY) (t.Z * (lay 2).dimZ)) =>
    dice_convex_f64 (R := 64) l2 l1 (by decide) (by decide) (by decide) S (by decide) (by decide)
      ⟨by rw [D.1]; decide, by rw [D.1]; decide⟩ ⟨by rw [D.2.1]; decide, by rw [D.2.1]; decide⟩ ⟨by rw [D.2.2]; decide, by rw [D.2.2]; decide⟩
      (by rw [D.1, M.1, abs_zero, zero_add]; exact q) (by rw [D.2.1, M.2.1, abs_zero, zero_add]; exact q)
      (by rw [D.2.2, M.2.2, abs_zero, zero_add]; exact q) (by rw [D.1, D.2.1, D.2.2]; exact reach) ht htile hl hk
  rw [D.1, D.2.1, D.2.2, E.1, E.2.1, E.2.2] at main
  constructor
  · have z2 : ¬ zeroDim (tileModel (lay 2) cube15 ⟨0, 0, 0⟩) := by decide +kernel
    obtain ⟨out, ho⟩ := (voxelize_defined (tileModel (lay 2) cube15 ⟨0, 0, 0⟩) (boxMesh (15 / 2) 15 15)).1
    obtain ⟨o, rfl, -⟩ := voxelize_exact _ _ z2 out ho
    have TX : (gridPart cube15 (boxScale cube15) 22 ⟨22, 22, 22⟩ ⟨0, 0, 0⟩).TX = 0 := by
      show cube15.Min.X.val + ((0 : Int) : ℚ) / _ = 0
      rw [M.1]; simp
    have TY : (gridPart cube15 (boxScale cube15) 22 ⟨22, 22, 22⟩ ⟨0, 0, 0⟩).TY = 0 := by
      show cube15.Min.Y.val + ((0 : Int) : ℚ) / _ = 0
      rw [M.2.1]; simp
    have em : 3 ≤ sliceMiddle (gridPart cube15 (boxScale cube15) 22 ⟨22, 22, 22⟩ ⟨0, 0, 0⟩) 5 ∧
        sliceMiddle (gridPart cube15 (boxScale cube15) 22 ⟨22, 22, 22⟩ ⟨0, 0, 0⟩) 5 ≤ 4 := by
      unfold sliceMiddle
      rw [v]
      show 3 ≤ cube15.Min.Z.val + ((0 : Int) : ℚ) / _ + _ ∧ cube15.Min.Z.val + ((0 : Int) : ℚ) / _ + _ ≤ 4
      rw [M.2.2]
      push_cast at *
      rw [zero_div, zero_add, zero_add, le_div_iff₀ (by linarith), div_le_iff₀ (by linarith)]
      constructor <;> linarith
    obtain ⟨hc, hin⟩ := box_deep (b := gridPart cube15 (boxScale cube15) 22 ⟨22, 22, 22⟩ ⟨0, 0, 0⟩) (by rw [v]; exact W) TX TY em
    refine ⟨o, ho, (main (t := ⟨0, 0, 0⟩) (l := ⟨4, 10, 5⟩) (k := ⟨4, 10, 5⟩) (by decide) ho (by unfold InDims; decide) rfl).2 ?_ box_convex box_normals
      box_offLimit hc hin⟩
    have := mul_le_mul W.2 g (by norm_num) (by norm_num)
    linarith
  · intro tile h hk
    exact (main (t := ⟨1, 0, 0⟩) (l := ⟨3, 10, 5⟩) (k := ⟨14, 10, 5⟩) (by decide) h (by unfold InDims; decide) rfl).1 hk

end StlDice
