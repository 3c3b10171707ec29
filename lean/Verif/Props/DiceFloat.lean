import Verif.Props.VoxelizeFloat
import Verif.Props.VoxcutDice

/-! # Dicing in float64 (C87, C88) -/

namespace StlDice
open Spec GoFloat BinVOX F64

/-! ## The regions of a job -/

theorem val_int {n : Int} (h : |n| ≤ 2 ^ 53) : (ofInt n : F64).val = n := of_exact (binary64_int h)

theorem gridPart_vpmm {mbb : Box F64} {scale : F64} {dim : Int} {n o : Key} (hV : 0 < (dim : ℚ) / scale.val) (hn : 0 < n.X) :
    (gridPart mbb scale dim n o).VoxelsPerMM = dim / scale.val := by
  have hmax : (0 : ℚ) < (dimOf n.X n.Y n.Z : Int) := by exact_mod_cast dimOf_pos hn
  unfold BinVOX.VoxelsPerMM vpmmOf
  have hle : ¬ (GoFloat.le (gridPart mbb scale dim n o).Scale (ofInt 0) = true) := by
    show ¬ (decide (((dimOf n.X n.Y n.Z : Int) : ℚ) / (dim / scale.val) ≤ ((0 : Int) : ℚ)) = true)
    rw [decide_eq_true_eq, not_le]
    push_cast
    exact div_pos hmax hV
  rw [if_neg hle]
  show ((dimOf n.X n.Y n.Z : Int) : ℚ) / (((dimOf n.X n.Y n.Z : Int) : ℚ) / (dim / scale.val)) = dim / scale.val
  exact div_div_cancel₀ hmax.ne'

/-- The resolution of a tile as `Voxelize` computes it from its scale. -/
theorem tile_pitch {V D : ℚ} (lo : (2 : ℚ) ^ (-899 : Int) ≤ V) (hi : V ≤ 2 ^ (899 : Int)) (hD : 1 ≤ D) :
    0 < rnd (D * rnd (1 / rnd V)) ∧ |rnd (D / rnd (D * rnd (1 / rnd V))) - V| ≤ V / 2 ^ 50 := by
  have lo' : (2 : ℚ) ^ (-900 : Int) ≤ V := (zpow_le_zpow_right₀ (by norm_num) (by norm_num)).trans lo
  have hi' : V ≤ 2 ^ (900 : Int) := hi.trans (zpow_le_zpow_right₀ (by norm_num) (by norm_num))
  have V0 : 0 < V := lt_of_lt_of_le (by positivity) lo
  have D0 : 0 < D := by linarith
  have pe := prod_error (s := D) lo' hi' rfl (Or.inr (by rw [abs_of_pos D0]; linarith))
  have big : (2 : ℚ) ^ (-1022 : Int) ≤ V / 2 := by
    have : (2 : ℚ) ^ (-1022 : Int) ≤ 2 ^ (-899 : Int) / 2 := by
      rw [le_div_iff₀ (by norm_num), ← zpow_add_one₀ (by norm_num)]
      exact zpow_le_zpow_right₀ (by norm_num) (by norm_num)
    linarith
  clear lo hi lo' hi'
  generalize rnd (D * rnd (1 / rnd V)) = S at *
  have W0 : 0 < D / V := by positivity
  rw [abs_of_pos W0] at pe
  obtain ⟨p1, p2⟩ := abs_le.mp pe
  have u : 4 / 2 ^ 53 * (D / V) ≤ 1 / 100 * (D / V) := mul_le_mul_of_nonneg_right (by norm_num) W0.le
  have S0 : 0 < S := by linarith
  refine ⟨S0, ?_⟩
  have q : |D / S - V| ≤ 5 / 2 ^ 53 * V := by
    have e : D / S - V = -(S - D / V) / S * V := by field_simp; ring
    rw [e, abs_mul, abs_div, abs_neg, abs_of_pos S0, abs_of_pos V0]
    refine mul_le_mul_of_nonneg_right ?_ V0.le
    rw [div_le_iff₀ S0]
    have : 5 / 2 ^ 53 * (99 / 100 * (D / V)) ≤ 5 / 2 ^ 53 * S := mul_le_mul_of_nonneg_left (by linarith) (by norm_num)
    have e : 5 / 2 ^ 53 * (99 / 100 * (D / V)) = 99 / 80 * (4 / 2 ^ 53 * (D / V)) := by ring
    have : 0 ≤ 4 / 2 ^ 53 * (D / V) := by positivity
    linarith
  obtain ⟨q1, q2⟩ := abs_le.mp q
  have u2 : 5 / 2 ^ 53 * V ≤ 1 / 100 * V := mul_le_mul_of_nonneg_right (by norm_num) V0.le
  have r0 : 0 < D / S := by positivity
  have r := rnd_error (q := D / S) (by rw [abs_of_pos r0]; linarith)
  rw [abs_of_pos r0] at r
  have r1 : D / S / 2 ^ 53 ≤ 2 * V / 2 ^ 53 := div_le_div_of_nonneg_right (by linarith) (by norm_num)
  have tri := abs_sub_le (rnd (D / S)) (D / S) V
  have e : V / 2 ^ 50 = 8 / 2 ^ 53 * V := by ring
  have e2 : 2 * V / 2 ^ 53 = 2 / 2 ^ 53 * V := by ring
  have e3 : (8 / 2 ^ 53 : ℚ) * V = 5 / 2 ^ 53 * V + 2 / 2 ^ 53 * V + 1 / 2 ^ 53 * V := by ring
  have : 0 < 1 / 2 ^ 53 * V := by positivity
  rw [e, e3]
  linarith

/-- A tile of a job is the part of the grid it stands for, up to rounding. -/
theorem tile_near {mbb : Box F64} {scale : F64} {dim nx ny nz : Int} {L : Layout F64} {R : ℚ} {t : Key}
    (h : layout mbb scale dim nx ny nz = .ok L) (hdim : |dim| ≤ 2 ^ 53) (lo : (2 : ℚ) ^ (-899 : Int) ≤ dim / scale.val)
    (hi : (dim : ℚ) / scale.val ≤ 2 ^ (899 : Int)) (px : 0 < L.dimX) (hD : dimOf L.dimX L.dimY L.dimZ ≤ 2 ^ 53)
    (ht : (0 ≤ t.X * L.dimX ∧ t.X * L.dimX ≤ 2 ^ 53) ∧ (0 ≤ t.Y * L.dimY ∧ t.Y * L.dimY ≤ 2 ^ 53) ∧
      (0 ≤ t.Z * L.dimZ ∧ t.Z * L.dimZ ≤ 2 ^ 53))
    (hx : |mbb.Min.X.val| + ((t.X * L.dimX : Int) : ℚ) / (dim / scale.val) ≤ R)
    (hy : |mbb.Min.Y.val| + ((t.Y * L.dimY : Int) : ℚ) / (dim / scale.val) ≤ R)
    (hz : |mbb.Min.Z.val| + ((t.Z * L.dimZ : Int) : ℚ) / (dim / scale.val) ≤ R) :
    NearModel R (gridPart mbb scale dim ⟨L.dimX, L.dimY, L.dimZ⟩ ⟨t.X * L.dimX, t.Y * L.dimY, t.Z * L.dimZ⟩)
      (tileModel L mbb t) := by
  obtain ⟨_, _, _, _, _, _, ev, em, _, _, _, _, _, _, es⟩ := layout_ok h
  have lo' : (2 : ℚ) ^ (-900 : Int) ≤ dim / scale.val := (zpow_le_zpow_right₀ (by norm_num) (by norm_num)).trans lo
  have hi' : (dim : ℚ) / scale.val ≤ 2 ^ (900 : Int) := hi.trans (zpow_le_zpow_right₀ (by norm_num) (by norm_num))
  have V0 : 0 < (dim : ℚ) / scale.val := lt_of_lt_of_le (by positivity) lo
  have D1 : 1 ≤ dimOf L.dimX L.dimY L.dimZ := dimOf_pos px
  have D1' : (1 : ℚ) ≤ (dimOf L.dimX L.dimY L.dimZ : Int) := by exact_mod_cast D1
  have vv : L.vpmm.val = rnd (dim / scale.val) := by
    rw [ev]
    show rnd ((ofInt dim : F64).val / scale.val) = _
    rw [val_int hdim]
  have vm : L.mmpv.val = rnd (1 / rnd (dim / scale.val)) := by
    rw [em]
    show rnd ((ofInt 1 : F64).val / L.vpmm.val) = _
    rw [val_one, vv]
  have vs : L.subScale.val = rnd ((dimOf L.dimX L.dimY L.dimZ : Int) * rnd (1 / rnd (dim / scale.val))) := by
    rw [es]
    show rnd ((ofInt (dimOf L.dimX L.dimY L.dimZ) : F64).val * L.mmpv.val) = _
    rw [val_int (by rw [abs_of_nonneg (by omega)]; exact hD), vm]
  obtain ⟨tp1, tp2⟩ := tile_pitch lo hi D1'
  have place : ∀ (c : F64) (o : Int), 0 ≤ o → o ≤ 2 ^ 53 → |c.val| + (o : ℚ) / (dim / scale.val) ≤ R →
      |(add c (mul (ofInt o) L.mmpv) : F64).val - (c.val + o / (dim / scale.val))| ≤ R / 2 ^ 48 := by
    intro c o h0 h1 hR
    have e : (add c (mul (ofInt o) L.mmpv) : F64).val = place64 (rnd (dim / scale.val)) c.val o := by
      show rnd (c.val + rnd ((ofInt o : F64).val * L.mmpv.val)) = _
      rw [val_int (by rw [abs_of_nonneg h0]; exact h1), vm, add_comm]
      rfl
    have o0 : (0 : ℚ) ≤ o := by exact_mod_cast h0
    have pe := place_error (t := c.val) (s := (o : ℚ)) lo' hi' rfl (val_mem c) (by
      rcases h0.eq_or_lt with h | h
      · left; rw [← h]; norm_num
      · right
        have : (1 : ℚ) ≤ o := by exact_mod_cast h
        rw [abs_of_nonneg o0]; linarith)
    rw [e, add_comm c.val]
    refine pe.trans ?_
    rw [abs_of_nonneg (by positivity)]
    have R0 : 0 ≤ R := le_trans (by positivity) hR
    have a : ((o : ℚ) / (dim / scale.val) + |c.val|) / 2 ^ 50 ≤ R / 2 ^ 50 :=
      div_le_div_of_nonneg_right (by linarith) (by norm_num)
    have b : R / 2 ^ 50 ≤ R / 2 ^ 48 := div_le_div_of_nonneg_left R0 (by norm_num) (by norm_num)
    linarith
  refine ⟨rfl, rfl, rfl, ?_, place _ _ ht.1.1 ht.1.2 hx, place _ _ ht.2.1.1 ht.2.1.2 hy, place _ _ ht.2.2.1 ht.2.2.2 hz⟩
  rw [gridPart_vpmm V0 px]
  have hv : (tileModel L mbb t).VoxelsPerMM.val =
      rnd ((dimOf L.dimX L.dimY L.dimZ : Int) / rnd ((dimOf L.dimX L.dimY L.dimZ : Int) * rnd (1 / rnd (dim / scale.val)))) := by
    unfold BinVOX.VoxelsPerMM vpmmOf
    have hle : ¬ (GoFloat.le (tileModel L mbb t).Scale (ofInt 0) = true) := by
      show ¬ (decide (L.subScale.val ≤ (ofInt 0 : F64).val) = true)
      rw [decide_eq_true_eq, not_le, val_zero, vs]
      exact tp1
    rw [if_neg hle]
    show rnd ((ofInt (dimOf L.dimX L.dimY L.dimZ) : F64).val / L.subScale.val) = _
    rw [val_int (by rw [abs_of_nonneg (by omega)]; exact hD), vs]
  rw [hv]
  exact tp2

theorem offBorder_shift {d g : ℚ} (o : Int) (h : OffBorder d g) : OffBorder d (g - o) := by
  intro n
  have := h (n + o)
  push_cast at this
  rwa [show g - o - n = g - (n + o) by ring]

/-- A mesh in general position to a grid is so to each part of it. -/
theorem general_part {mbb : Box F64} {scale : F64} {dim : Int} {R : ℚ} {m : Mesh ℚ} {n n' o : Key}
    (V0 : 0 < (dim : ℚ) / scale.val) (hn : 0 < n.X) (hn' : 0 < n'.X)
    (ho : 0 ≤ o.X ∧ 0 ≤ o.Y ∧ 0 ≤ o.Z) (hs : o.X + n'.X ≤ n.X ∧ o.Y + n'.Y ≤ n.Y ∧ o.Z + n'.Z ≤ n.Z)
    (hz : 0 ≤ n'.Y ∧ 0 ≤ n'.Z)
    (hx : |mbb.Min.X.val| + (n.X : ℚ) / (dim / scale.val) ≤ R)
    (hy : |mbb.Min.Y.val| + (n.Y : ℚ) / (dim / scale.val) ≤ R)
    (hzz : |mbb.Min.Z.val| + (n.Z : ℚ) / (dim / scale.val) ≤ R)
    (hg : GeneralPosition R (gridPart mbb scale dim n ⟨0, 0, 0⟩) m) :
    GeneralPosition R (gridPart mbb scale dim n' o) m := by
  have v1 := gridPart_vpmm (mbb := mbb) (n := n) (o := ⟨0, 0, 0⟩) V0 hn
  have v2 := gridPart_vpmm (mbb := mbb) (n := n') (o := o) V0 hn'
  have bound : ∀ (c : ℚ) (k l : Int), 0 ≤ k → k ≤ l → |c| + (l : ℚ) / (dim / scale.val) ≤ R →
      |c + (k : ℚ) / (dim / scale.val)| ≤ R := by
    intro c k l h0 h1 h2
    have a := abs_add_le c ((k : ℚ) / (dim / scale.val))
    have k0 : (0 : ℚ) ≤ k := by exact_mod_cast h0
    rw [abs_of_nonneg (by positivity : (0 : ℚ) ≤ (k : ℚ) / (dim / scale.val))] at a
    have : (k : ℚ) / (dim / scale.val) ≤ (l : ℚ) / (dim / scale.val) :=
      div_le_div_of_nonneg_right (by exact_mod_cast h1) V0.le
    linarith
  have mid : ∀ zi : Int, sliceMiddle (gridPart mbb scale dim n' o) zi =
      sliceMiddle (gridPart mbb scale dim n ⟨0, 0, 0⟩) (zi + o.Z) := by
    intro zi
    unfold sliceMiddle
    rw [v1, v2]
    show mbb.Min.Z.val + (o.Z : ℚ) / (dim / scale.val) + _ = mbb.Min.Z.val + ((0 : Int) : ℚ) / (dim / scale.val) + _
    push_cast
    ring
  have edge : ∀ p q, GeneralEdge R (gridPart mbb scale dim n ⟨0, 0, 0⟩) p q → GeneralEdge R (gridPart mbb scale dim n' o) p q := by
    intro p q ⟨e1, e2⟩
    refine ⟨e1, fun hf zi h0 h1 => ?_⟩
    have hzi : zi + o.Z < n.Z := by
      have : zi < n'.Z := h1
      omega
    obtain ⟨f1, f2, f5⟩ := e2 hf (zi + o.Z) (by omega) hzi
    rw [← mid] at f1 f2 f5
    rw [v1] at f5
    rw [v2]
    refine ⟨f1, f2, fun hb => ?_⟩
    obtain ⟨f3, f4⟩ := f5 hb
    constructor
    · have := offBorder_shift o.X f3
      convert this using 1
      show dim / scale.val * (_ - (mbb.Min.X.val + (o.X : ℚ) / (dim / scale.val))) =
        dim / scale.val * (_ - (mbb.Min.X.val + ((0 : Int) : ℚ) / (dim / scale.val))) - (o.X : ℚ)
      generalize edgeAt p.X p.Z q.X q.Z _ = E
      generalize (dim : ℚ) / scale.val = V at *
      have := V0.ne'
      push_cast
      field_simp
      ring
    · have := offBorder_shift o.Y f4
      convert this using 1
      show dim / scale.val * (_ - (mbb.Min.Y.val + (o.Y : ℚ) / (dim / scale.val))) =
        dim / scale.val * (_ - (mbb.Min.Y.val + ((0 : Int) : ℚ) / (dim / scale.val))) - (o.Y : ℚ)
      generalize edgeAt p.Y p.Z q.Y q.Z _ = E
      generalize (dim : ℚ) / scale.val = V at *
      have := V0.ne'
      push_cast
      field_simp
      ring
  refine ⟨?_, ?_, ?_, ⟨bound _ _ _ ho.1 (by omega) hx, bound _ _ _ ho.2.1 (by omega) hy, bound _ _ _ ho.2.2 (by omega) hzz⟩, ?_,
    hg.points, fun p hp => ?_, hg.normals⟩
  · rw [v2, ← v1]; exact hg.lo
  · rw [v2, ← v1]; exact hg.hi
  · have : n.Z ≤ 2 ^ 50 := hg.nz
    show n'.Z ≤ 2 ^ 50
    omega
  · have := hg.top
    rw [v1] at this
    rw [v2]
    refine le_trans (div_le_div_of_nonneg_right ?_ V0.le) this
    show (n'.Z : ℚ) ≤ n.Z
    have : n'.Z ≤ n.Z := by omega
    exact_mod_cast this
  · obtain ⟨a, c, d⟩ := hg.edges p hp
    exact ⟨edge _ _ a, edge _ _ c, edge _ _ d⟩

theorem le_dimOf (a c d : Int) : a ≤ dimOf a c d ∧ c ≤ dimOf a c d ∧ d ≤ dimOf a c d := by
  unfold dimOf; dsimp only; split <;> split <;> omega

theorem dimOf_le_of {a c d e : Int} (ha : a ≤ e) (hc : c ≤ e) (hd : d ≤ e) : dimOf a c d ≤ e := by
  unfold dimOf; dsimp only; split <;> split <;> omega

/-- **C87.** Dicing in float64, for a mesh in general position to the grid of the job: a tile holds, inside its own
    dimensions, exactly the voxels the undiced job stores in the tile's box, under every schedule of both. -/
theorem dice_f64_same_voxels {mbb : Box F64} {scale : F64} {dim nx ny nz : Int} {L L1 : Layout F64} {R : ℚ} {mesh : Mesh F64}
    (h : layout mbb scale dim nx ny nz = .ok L) (h1 : layout mbb scale dim 1 1 1 = .ok L1)
    (hnx : 0 < nx) (hny : 0 < ny) (hnz : 0 < nz) (hs0 : 0 < scale.val) (hd0 : 0 < dim) (hdim : dim ≤ 2 ^ 53)
    (mx : 0 < L1.dimX ∧ L1.dimX ≤ 2 ^ 50) (my : 0 < L1.dimY ∧ L1.dimY ≤ 2 ^ 50) (mz : 0 < L1.dimZ ∧ L1.dimZ ≤ 2 ^ 50)
    (hx : |mbb.Min.X.val| + (L1.dimX : ℚ) / (dim / scale.val) ≤ R)
    (hy : |mbb.Min.Y.val| + (L1.dimY : ℚ) / (dim / scale.val) ≤ R)
    (hz : |mbb.Min.Z.val| + (L1.dimZ : ℚ) / (dim / scale.val) ≤ R)
    (hg : GeneralPosition R (gridPart mbb scale dim ⟨L1.dimX, L1.dimY, L1.dimZ⟩ ⟨0, 0, 0⟩) (exactMesh mesh))
    {whole : BinVOX F64} (hw : VoxelizeRun (tileModel L1 mbb ⟨0, 0, 0⟩) mesh (.ok whole))
    {t : Key} (ht : t ∈ tileIndices nx ny nz) {tile : BinVOX F64} (htile : VoxelizeRun (tileModel L mbb t) mesh (.ok tile))
    {l : Key} (hl : InDims L.dimX L.dimY L.dimZ l) :
    tile.white.has l = true ↔
      whole.white.has (l.shift (t.X * L.dimX) (t.Y * L.dimY) (t.Z * L.dimZ)) = true := by
  obtain ⟨_, _, _, dx0, dy0, dz0, ev, -, ex, ey, ez, fx, fy, fz, -⟩ := layout_ok h
  obtain ⟨_, _, _, _, _, _, ev1, -, ex1, ey1, ez1, fx1, fy1, fz1, -⟩ := layout_ok h1
  rw [ev] at ex ey ez
  rw [ev1] at ex1 ey1 ez1
  rw [Int.tdiv_one] at fx1 fy1 fz1
  rw [ex, ← ex1, ← fx1] at fx
  rw [ey, ← ey1, ← fy1] at fy
  rw [ez, ← ez1, ← fz1] at fz
  have axis : ∀ {M n d : Int}, 0 < M → 0 < n → d ≠ 0 → d = M.tdiv n → 0 < d ∧ ∀ i, 0 ≤ i → i < n → 0 ≤ i * d ∧ i * d + d ≤ M := by
    intro M n d hM hn hd e
    rw [Int.tdiv_eq_ediv_of_nonneg hM.le] at e
    have d0 : 0 ≤ d := by rw [e]; exact Int.ediv_nonneg hM.le hn.le
    have dp : 0 < d := by omega
    refine ⟨dp, fun i h0 h1 => ⟨Int.mul_nonneg h0 d0, ?_⟩⟩
    have a : n * d ≤ M := by rw [e]; exact Int.mul_ediv_self_le hn.ne'
    have c : (i + 1) * d ≤ n * d := Int.mul_le_mul_of_nonneg_right (by omega) d0
    rw [Int.add_mul, Int.one_mul] at c
    omega
  obtain ⟨px, ax⟩ := axis mx.1 hnx dx0 fx
  obtain ⟨py, ay⟩ := axis my.1 hny dy0 fy
  obtain ⟨pz, az⟩ := axis mz.1 hnz dz0 fz
  rw [mem_tileIndices] at ht
  obtain ⟨tx0, tx1, ty0, ty1, tz0, tz1⟩ := ht
  obtain ⟨bx0, bx1⟩ := ax t.X tx0 tx1
  obtain ⟨by0, by1⟩ := ay t.Y ty0 ty1
  obtain ⟨bz0, bz1⟩ := az t.Z tz0 tz1
  clear ax ay az axis
  have lo := hg.lo
  have hi := hg.hi
  have V0 : 0 < (dim : ℚ) / scale.val := div_pos (by exact_mod_cast hd0) hs0
  have v1 := gridPart_vpmm (mbb := mbb) (n := ⟨L1.dimX, L1.dimY, L1.dimZ⟩) (o := ⟨0, 0, 0⟩) V0 mx.1
  rw [v1] at lo hi
  have part : ∀ {c : ℚ} {k l : Int}, k ≤ l → |c| + (l : ℚ) / (dim / scale.val) ≤ R → |c| + (k : ℚ) / (dim / scale.val) ≤ R := by
    intro c k l hkl hR
    have : (k : ℚ) / (dim / scale.val) ≤ (l : ℚ) / (dim / scale.val) :=
      div_le_div_of_nonneg_right (by exact_mod_cast hkl) V0.le
    linarith
  have nT := tile_near (t := t) h (by rw [abs_of_pos hd0]; exact hdim) lo hi px ((dimOf_le_of (e := 2 ^ 53) (by omega) (by omega) (by omega)))
    ⟨⟨bx0, by omega⟩, ⟨by0, by omega⟩, ⟨bz0, by omega⟩⟩ (part (by omega) hx) (part (by omega) hy) (part (by omega) hz)
  have nW := tile_near (t := ⟨0, 0, 0⟩) (R := R) h1 (by rw [abs_of_pos hd0]; exact hdim) lo hi mx.1 ((dimOf_le_of (e := 2 ^ 53) (by omega) (by omega) (by omega)))
    (by simp) (part (by simp only [Int.zero_mul]; omega) hx) (part (by simp only [Int.zero_mul]; omega) hy)
    (part (by simp only [Int.zero_mul]; omega) hz)
  simp only [Int.zero_mul] at nW
  have gT : GeneralPosition R (gridPart mbb scale dim ⟨L.dimX, L.dimY, L.dimZ⟩ ⟨t.X * L.dimX, t.Y * L.dimY, t.Z * L.dimZ⟩)
      (exactMesh mesh) :=
    general_part V0 mx.1 px ⟨bx0, by0, bz0⟩ ⟨by show t.X * L.dimX + L.dimX ≤ L1.dimX; omega, by show t.Y * L.dimY + L.dimY ≤ L1.dimY; omega, by show t.Z * L.dimZ + L.dimZ ≤ L1.dimZ; omega⟩ ⟨py.le, pz.le⟩ hx hy hz hg
  have run : ∀ b : BinVOX ℚ, ¬ zeroDim b → ∃ out, VoxelizeRun b (exactMesh mesh) (.ok out) := by
    intro b hb
    obtain ⟨out, ho⟩ := (voxelize_defined b (exactMesh mesh)).1
    obtain ⟨o, rfl, -⟩ := voxelize_exact b (exactMesh mesh) hb out ho
    exact ⟨o, ho⟩
  obtain ⟨eT, rT⟩ := run (gridPart mbb scale dim ⟨L.dimX, L.dimY, L.dimZ⟩ ⟨t.X * L.dimX, t.Y * L.dimY, t.Z * L.dimZ⟩) (by
    rintro (e | e | e)
    · exact px.ne' e
    · exact py.ne' e
    · exact pz.ne' e)
  obtain ⟨eW, rW⟩ := run (gridPart mbb scale dim ⟨L1.dimX, L1.dimY, L1.dimZ⟩ ⟨0, 0, 0⟩) (by
    rintro (e | e | e)
    · exact mx.1.ne' e
    · exact my.1.ne' e
    · exact mz.1.ne' e)
  rw [voxelize_f64 nT gT rT htile, voxelize_f64 nW hg rW hw]
  have v2 := gridPart_vpmm (mbb := mbb) (n := ⟨L.dimX, L.dimY, L.dimZ⟩)
    (o := ⟨t.X * L.dimX, t.Y * L.dimY, t.Z * L.dimZ⟩) V0 px
  refine voxelize_subgrid _ _ eW eT _ _ _ ⟨v2.trans v1.symm, by rw [v1]; exact V0, ?_, ?_, ?_⟩ (exactMesh mesh) rW rT l hl ?_
  · rw [v1]
    show mbb.Min.X.val + ((t.X * L.dimX : Int) : ℚ) / (dim / scale.val) =
      mbb.Min.X.val + ((0 : Int) : ℚ) / (dim / scale.val) + ((t.X * L.dimX : Int) : ℚ) * (1 / (dim / scale.val))
    rw [Int.cast_zero, zero_div, add_zero, mul_one_div]
  · rw [v1]
    show mbb.Min.Y.val + ((t.Y * L.dimY : Int) : ℚ) / (dim / scale.val) =
      mbb.Min.Y.val + ((0 : Int) : ℚ) / (dim / scale.val) + ((t.Y * L.dimY : Int) : ℚ) * (1 / (dim / scale.val))
    rw [Int.cast_zero, zero_div, add_zero, mul_one_div]
  · rw [v1]
    show mbb.Min.Z.val + ((t.Z * L.dimZ : Int) : ℚ) / (dim / scale.val) =
      mbb.Min.Z.val + ((0 : Int) : ℚ) / (dim / scale.val) + ((t.Z * L.dimZ : Int) : ℚ) * (1 / (dim / scale.val))
    rw [Int.cast_zero, zero_div, add_zero, mul_one_div]
  · unfold InDims Key.shift at *
    show 0 ≤ l.X + t.X * L.dimX ∧ l.X + t.X * L.dimX < L1.dimX ∧ 0 ≤ l.Y + t.Y * L.dimY ∧ l.Y + t.Y * L.dimY < L1.dimY ∧
      0 ≤ l.Z + t.Z * L.dimZ ∧ l.Z + t.Z * L.dimZ < L1.dimZ
    omega

/-! ## An example in general position -/

theorem offBorder_of {d g : ℚ} (h1 : (⌊g⌋ : ℚ) + d < g) (h2 : g + d < ⌊g⌋ + 1) : OffBorder d g := by
  intro n
  rcases lt_or_ge n (⌊g⌋ + 1) with h | h
  · have h' : (n : ℚ) ≤ ⌊g⌋ := by exact_mod_cast Int.lt_add_one_iff.mp h
    exact lt_of_lt_of_le (by linarith) (le_abs_self _)
  · have h' : (⌊g⌋ : ℚ) + 1 ≤ n := by exact_mod_cast h
    rw [abs_sub_comm]
    exact lt_of_lt_of_le (by linarith) (le_abs_self _)

/-- A check of `GeneralEdge` by computation. -/
def checkEdge (R : ℚ) (b : BinVOX ℚ) (p q : Vec ℚ) : Bool :=
  (decide (|q.Z - p.Z| ≤ flatLimit * (1 - 1 / 1125899906842624)) || decide (flatLimit * (1 + 1 / 1125899906842624) ≤ |q.Z - p.Z|)) &&
  (intRange 0 b.NZ).all fun zi =>
    decide (2 * (R / 35184372088832) < |sliceMiddle b zi - p.Z|) && decide (2 * (R / 35184372088832) < |sliceMiddle b zi - q.Z|) &&
    (!decide (p.Z < sliceMiddle b zi ↔ sliceMiddle b zi < q.Z) ||
    (let d := b.VoxelsPerMM * (4 * (1 + |(q.X - p.X) / (q.Z - p.Z)|) * (R / 35184372088832))
     let g := b.VoxelsPerMM * (edgeAt p.X p.Z q.X q.Z (sliceMiddle b zi) - b.TX)
     decide (((g.floor : Int) : ℚ) + d < g) && decide (g + d < ((g.floor : Int) : ℚ) + 1)) &&
    (let d := b.VoxelsPerMM * (4 * (1 + |(q.Y - p.Y) / (q.Z - p.Z)|) * (R / 35184372088832))
     let g := b.VoxelsPerMM * (edgeAt p.Y p.Z q.Y q.Z (sliceMiddle b zi) - b.TY)
     decide (((g.floor : Int) : ℚ) + d < g) && decide (g + d < ((g.floor : Int) : ℚ) + 1)))

theorem checkEdge_ok {R : ℚ} {b : BinVOX ℚ} {p q : Vec ℚ} (h : checkEdge R b p q = true) : GeneralEdge R b p q := by
  have p45 : (2 : ℚ) ^ 45 = 35184372088832 := by norm_num
  have p50 : (2 : ℚ) ^ 50 = 1125899906842624 := by norm_num
  unfold GeneralEdge OffLimit
  rw [p45, p50]
  unfold checkEdge at h
  rw [Bool.and_eq_true, Bool.or_eq_true, List.all_eq_true] at h
  simp only [decide_eq_true_eq] at h
  refine ⟨h.1, fun _ zi h0 h1 => ?_⟩
  have := h.2 zi ((mem_intRange _ _ _).mpr ⟨h0, by omega⟩)
  simp only [Bool.and_eq_true, Bool.or_eq_true, Bool.not_eq_true', decide_eq_true_eq, decide_eq_false_iff_not] at this
  obtain ⟨⟨a, c⟩, d⟩ := this
  refine ⟨a, c, fun hb => ?_⟩
  obtain ⟨⟨d, e⟩, f, g⟩ := d.resolve_left (not_not.mpr hb)
  exact ⟨offBorder_of d e, offBorder_of f g⟩

/-- A corner with a normal. -/
def vtx (x y z : ℚ) (n : Vec F64) : Vertex F64 := ⟨⟨of x, of y, of z⟩, n⟩

/-- The triangles of the box from the origin to `(a, b, c)`, outwards. -/
def boxTris (a b c : ℚ) : List (Triangle F64) :=
  let nx : Vec F64 := ⟨ofInt 1, ofInt 0, ofInt 0⟩
  let mx : Vec F64 := ⟨ofInt (-1), ofInt 0, ofInt 0⟩
  let ny : Vec F64 := ⟨ofInt 0, ofInt 1, ofInt 0⟩
  let my : Vec F64 := ⟨ofInt 0, ofInt (-1), ofInt 0⟩
  let nz : Vec F64 := ⟨ofInt 0, ofInt 0, ofInt 1⟩
  let mz : Vec F64 := ⟨ofInt 0, ofInt 0, ofInt (-1)⟩
  [⟨vtx 0 0 0 mx, vtx 0 0 c mx, vtx 0 b c mx⟩, ⟨vtx 0 0 0 mx, vtx 0 b c mx, vtx 0 b 0 mx⟩,
   ⟨vtx a 0 0 nx, vtx a b 0 nx, vtx a b c nx⟩, ⟨vtx a 0 0 nx, vtx a b c nx, vtx a 0 c nx⟩,
   ⟨vtx 0 0 0 my, vtx a 0 0 my, vtx a 0 c my⟩, ⟨vtx 0 0 0 my, vtx a 0 c my, vtx 0 0 c my⟩,
   ⟨vtx 0 b 0 ny, vtx 0 b c ny, vtx a b c ny⟩, ⟨vtx 0 b 0 ny, vtx a b c ny, vtx a b 0 ny⟩,
   ⟨vtx 0 0 0 mz, vtx 0 b 0 mz, vtx a b 0 mz⟩, ⟨vtx 0 0 0 mz, vtx a b 0 mz, vtx a 0 0 mz⟩,
   ⟨vtx 0 0 c nz, vtx a 0 c nz, vtx a b c nz⟩, ⟨vtx 0 0 c nz, vtx a b c nz, vtx 0 b c nz⟩]

/-- The box as a mesh. -/
def boxMesh (a b c : ℚ) : Mesh F64 where
  heap i := (boxTris a b c).getD i ⟨vtx 0 0 0 ⟨ofInt 0, ofInt 0, ofInt 0⟩, vtx 0 0 0 ⟨ofInt 0, ofInt 0, ofInt 0⟩, vtx 0 0 0 ⟨ofInt 0, ofInt 0, ofInt 0⟩⟩
  Triangles := List.range 12

/-- The bounding box of the defect. -/
def cube15 : Box F64 := ⟨⟨ofInt 0, ofInt 0, ofInt 0⟩, ⟨ofInt 15, ofInt 15, ofInt 15⟩⟩


/-- A tetrahedron. -/
def tetra : Mesh F64 where
  heap i :=
    let a := vtx (1 / 8) (1 / 8) (1 / 16)
    let b := vtx (4 / 5) (1 / 3) (3 / 16)
    let c := vtx (1 / 3) (13 / 16) (5 / 32)
    let d := vtx (5 / 16) (3 / 8) (15 / 16)
    let e : Vec F64 := ⟨ofInt 1, ofInt 0, ofInt 0⟩
    let f : Vec F64 := ⟨ofInt (-1), ofInt 0, ofInt 0⟩
    let g : Vec F64 := ⟨ofInt 0, ofInt 0, ofInt (-1)⟩
    [(⟨a g, c g, b g⟩ : Triangle F64), ⟨a e, b e, d e⟩, ⟨b e, c e, d e⟩].getD i ⟨c f, a f, d f⟩
  Triangles := [0, 1, 2, 3]

/-- The unit cube. -/
def unitBox : Box F64 := ⟨⟨ofInt 0, ofInt 0, ofInt 0⟩, ⟨ofInt 1, ofInt 1, ofInt 1⟩⟩

instance (R : ℚ) (p : Vec ℚ) : Decidable (Within R p) := by unfold Within; infer_instance
instance (x : ℚ) : Decidable (OffLimit x) := by unfold OffLimit; infer_instance

/-- The tetrahedron is in general position to a grid of four voxels along the unit cube. -/
theorem tetra_general : GeneralPosition 3 (gridPart unitBox (ofInt 1) 4 ⟨4, 4, 4⟩ ⟨0, 0, 0⟩) (exactMesh tetra) where
  lo := by
    refine le_trans (zpow_le_zpow_right₀ (by norm_num) (by norm_num : (-899 : Int) ≤ 0)) ?_
    rw [zpow_zero]; decide +kernel
  hi := by
    refine le_trans ?_ (zpow_le_zpow_right₀ (by norm_num) (by norm_num : (3 : Int) ≤ 899))
    decide +kernel
  nz := by decide
  corner := by decide +kernel
  top := by decide +kernel
  points := by decide +kernel
  edges := by
    have h : ∀ p ∈ tetra.Triangles, checkEdge 3 (gridPart unitBox (ofInt 1) 4 ⟨4, 4, 4⟩ ⟨0, 0, 0⟩)
          ((exactMesh tetra).heap p).V1.Position ((exactMesh tetra).heap p).V2.Position = true ∧
        checkEdge 3 (gridPart unitBox (ofInt 1) 4 ⟨4, 4, 4⟩ ⟨0, 0, 0⟩)
          ((exactMesh tetra).heap p).V2.Position ((exactMesh tetra).heap p).V3.Position = true ∧
        checkEdge 3 (gridPart unitBox (ofInt 1) 4 ⟨4, 4, 4⟩ ⟨0, 0, 0⟩)
          ((exactMesh tetra).heap p).V3.Position ((exactMesh tetra).heap p).V1.Position = true := by decide +kernel
    intro p hp
    obtain ⟨a, c, d⟩ := h p hp
    exact ⟨checkEdge_ok a, checkEdge_ok c, checkEdge_ok d⟩
  normals := by decide +kernel

/-- The tetrahedron diced into eight tiles. -/
example {L L1 : Layout F64} (h : layout unitBox (ofInt 1) 4 2 2 2 = .ok L) (h1 : layout unitBox (ofInt 1) 4 1 1 1 = .ok L1)
    {whole : BinVOX F64} (hw : VoxelizeRun (tileModel L1 unitBox ⟨0, 0, 0⟩) tetra (.ok whole))
    {t : Key} (ht : t ∈ tileIndices 2 2 2) {tile : BinVOX F64} (htile : VoxelizeRun (tileModel L unitBox t) tetra (.ok tile))
    {l : Key} (hl : InDims L.dimX L.dimY L.dimZ l) :
    tile.white.has l = true ↔ whole.white.has (l.shift (t.X * L.dimX) (t.Y * L.dimY) (t.Z * L.dimZ)) = true := by
  have e : L1.dimX = 4 ∧ L1.dimY = 4 ∧ L1.dimZ = 4 := by
    obtain ⟨_, _, _, _, _, _, ev, -, ex, ey, ez, fx, fy, fz, -⟩ := layout_ok h1
    rw [fx, fy, fz, ex, ey, ez, ev]
    decide +kernel
  obtain ⟨e1, e2, e3⟩ := e
  refine dice_f64_same_voxels (R := 3) h h1 (by norm_num) (by norm_num) (by norm_num) (by decide +kernel) (by norm_num)
    (by norm_num) (by rw [e1]; norm_num) (by rw [e2]; norm_num) (by rw [e3]; norm_num) (by rw [e1]; decide +kernel)
    (by rw [e2]; decide +kernel) (by rw [e3]; decide +kernel) (by rw [e1, e2, e3]; exact tetra_general) hw ht htile hl

/-- Both kinds of runs exist. -/
example : (∃ L, layout unitBox (ofInt 1) 4 2 2 2 = .ok L ∧ InDims L.dimX L.dimY L.dimZ ⟨1, 1, 1⟩) ∧
    ∃ L1, layout unitBox (ofInt 1) 4 1 1 1 = .ok L1 := by
  constructor
  · cases h : layout unitBox (ofInt 1) 4 2 2 2 with
    | ok L =>
      refine ⟨L, rfl, ?_⟩
      obtain ⟨_, _, _, _, _, _, ev, -, ex, ey, ez, fx, fy, fz, -⟩ := layout_ok h
      rw [fx, fy, fz, ex, ey, ez, ev]
      unfold InDims
      decide +kernel
    | err => exact absurd h (by decide +kernel)
    | panic => exact absurd h (by decide +kernel)
  · cases h : layout unitBox (ofInt 1) 4 1 1 1 with
    | ok L => exact ⟨L, rfl⟩
    | err => exact absurd h (by decide +kernel)
    | panic => exact absurd h (by decide +kernel)

/-! ## Where it fails -/

/-- The numbers of a job on the cube of 15 mm with 22 voxels, divided along x. -/
def lay (nx : Int) : Layout F64 := match layout cube15 (boxScale cube15) 22 nx 1 1 with
  | .ok L => L
  | _ => ⟨ofInt 0, ofInt 0, 0, 0, 0, 0, 0, 0, ofInt 0⟩

/-- **C87 (violated).** A box of 7.5 × 15 × 15 mm in a job of 22 voxels along 15 mm: the undiced job stores the line of
    voxels `(11, y, 5)`, the job diced into two halves (of 11 voxels each) loses it: tile 1 holds no voxel of that slice
    at all inside its dimensions, although the voxels are the first ones of tile 1, under every schedule. -/
theorem dice_f64_loses : layout cube15 (boxScale cube15) 22 1 1 1 = .ok (lay 1) ∧
    layout cube15 (boxScale cube15) 22 2 1 1 = .ok (lay 2) ∧ (lay 1).dimX = 22 ∧ (lay 2).dimX = 11 ∧
    (∃ out, VoxelizeRun (tileModel (lay 1) cube15 ⟨0, 0, 0⟩) (boxMesh (15 / 2) 15 15) (.ok out)) ∧
    (∃ out, VoxelizeRun (tileModel (lay 2) cube15 ⟨1, 0, 0⟩) (boxMesh (15 / 2) 15 15) (.ok out)) ∧
    (∀ whole, VoxelizeRun (tileModel (lay 1) cube15 ⟨0, 0, 0⟩) (boxMesh (15 / 2) 15 15) (.ok whole) →
      ∀ y, 0 ≤ y → y < 22 → whole.white.has ⟨11, y, 5⟩ = true) ∧
    (∀ tile, VoxelizeRun (tileModel (lay 2) cube15 ⟨1, 0, 0⟩) (boxMesh (15 / 2) 15 15) (.ok tile) →
      ∀ x y, 0 ≤ x → tile.white.has ⟨x, y, 5⟩ = false) := by
  have z1 : ¬ zeroDim (tileModel (lay 1) cube15 ⟨0, 0, 0⟩) := by decide +kernel
  have z2 : ¬ zeroDim (tileModel (lay 2) cube15 ⟨1, 0, 0⟩) := by decide +kernel
  have run : ∀ b : BinVOX F64, ¬ zeroDim b → ∃ out, VoxelizeRun b (boxMesh (15 / 2) 15 15) (.ok out) := by
    intro b hb
    obtain ⟨out, ho⟩ := (voxelize_defined b (boxMesh (15 / 2) 15 15)).1
    obtain ⟨o, rfl, -⟩ := voxelize_exact b (boxMesh (15 / 2) 15 15) hb out ho
    exact ⟨o, ho⟩
  refine ⟨by decide +kernel, by decide +kernel, by decide +kernel, by decide +kernel, run _ z1, run _ z2, ?_, ?_⟩
  · intro whole hw y h0 h1
    obtain ⟨c, hc, _, _, hh⟩ := voxelize_exact _ _ z1 _ hw
    injection hc with hc; subst hc
    rw [hh]
    have hnz : (5 : Int) < (tileModel (lay 1) cube15 ⟨0, 0, 0⟩).NZ := by decide +kernel
    refine ⟨by norm_num, hnz, ?_⟩
    have all : ∀ y ∈ intRange 0 22, ∃ r ∈ sliceRows (tileModel (lay 1) cube15 ⟨0, 0, 0⟩) (boxMesh (15 / 2) 15 15) 5,
        (⟨11, y, 5⟩ : Key) ∈ r := by decide +kernel
    exact ((sliceRows_mem _ _ 5 ⟨11, y, 5⟩).mp (all y ((mem_intRange _ _ _).mpr ⟨h0, by omega⟩))).2
  · intro tile hw x y h0
    obtain ⟨c, hc, _, _, hh⟩ := voxelize_exact _ _ z2 _ hw
    injection hc with hc; subst hc
    rw [Bool.eq_false_iff, Ne, hh]
    rintro ⟨-, -, hf⟩
    have all : ∀ r ∈ sliceRows (tileModel (lay 2) cube15 ⟨1, 0, 0⟩) (boxMesh (15 / 2) 15 15) 5, ∀ k ∈ r, k.X < 0 := by
      decide +kernel
    obtain ⟨r, hr, hk⟩ := (sliceRows_mem _ _ 5 ⟨x, y, 5⟩).mpr ⟨rfl, hf⟩
    have := all r hr _ hk
    dsimp only at this
    omega

/-! ## The number of voxels -/

theorem ceil_f64 (z : F64) : toInt (ceil z) = ⌈z.val⌉ := by
  have e : Rat.ceil z.val = ⌈z.val⌉ := by rw [Rat.ceil_eq_neg_floor_neg]; rfl
  have hb : Binary64 ((z.val.ceil : Int) : ℚ) := by
    rw [Rat.ceil_eq_neg_floor_neg]
    push_cast
    exact binary64_neg (binary64_floor (binary64_neg (val_mem z)))
  have hf : (ceil z : F64).val = ((z.val.ceil : Int) : ℚ) := of_exact hb
  rw [← e]
  show (if 0 ≤ (ceil z : F64).val then (ceil z : F64).val.floor else (ceil z : F64).val.ceil) = z.val.ceil
  rw [hf, Rat.floor_intCast, Rat.ceil_intCast, ite_self]

/-- A length of `S` millimetres at `dim` voxels per `S` millimetres gets `dim` voxels or one more. -/
theorem widest_bound {S : F64} {dim : Int} (hd : 0 < dim) (hd2 : dim ≤ 2 ^ 50) (s0 : 0 < S.val)
    (big : (2 : ℚ) ^ (-1022 : Int) ≤ dim / S.val) :
    toInt (ceil (mul S (div (ofInt dim) S))) = dim ∨ toInt (ceil (mul S (div (ofInt dim) S))) = dim + 1 := by
  rw [ceil_f64]
  have hv : (mul S (div (ofInt dim) S) : F64).val = rnd (S.val * rnd (dim / S.val)) := by
    show rnd (S.val * rnd ((ofInt dim : F64).val / S.val)) = _
    rw [val_int (by rw [abs_of_pos hd]; omega)]
  rw [hv]
  generalize S.val = s at *
  have d1 : (1 : ℚ) ≤ dim := by exact_mod_cast hd
  have d2 : (dim : ℚ) ≤ 2 ^ 50 := by exact_mod_cast hd2
  have V0 : 0 < (dim : ℚ) / s := by positivity
  have r := rnd_error (q := (dim : ℚ) / s) (by rw [abs_of_pos V0]; exact big)
  rw [abs_of_pos V0] at r
  have big2 : (2 : ℚ) ^ (-1022 : Int) ≤ 1 / 2 := by
    refine le_trans (zpow_le_zpow_right₀ (by norm_num) (by norm_num : (-1022 : Int) ≤ -1)) (by norm_num)
  clear big
  have e : s * (dim / s) = dim := by field_simp
  have p : |s * rnd (dim / s) - dim| ≤ dim / 2 ^ 53 := by
    have := mul_le_mul_of_nonneg_left r s0.le
    rw [← abs_of_pos s0, ← abs_mul, abs_of_pos s0, mul_sub, e] at this
    refine this.trans (le_of_eq ?_)
    field_simp
  have u : (dim : ℚ) / 2 ^ 53 ≤ 1 / 8 := by
    have := div_le_div_of_nonneg_right d2 (by norm_num : (0 : ℚ) ≤ 2 ^ 53)
    refine this.trans (by norm_num)
  generalize s * rnd (dim / s) = q at *
  obtain ⟨p1, p2⟩ := abs_le.mp p
  have q0 : 0 < q := by linarith
  have r2 := rnd_error (q := q) (by rw [abs_of_pos q0]; clear * - p1 u d1 big2; generalize (2 : ℚ) ^ (-1022 : Int) = w at *; linarith)
  rw [abs_of_pos q0] at r2
  have u2 : q / 2 ^ 53 ≤ 1 / 4 := by
    have := div_le_div_of_nonneg_right (by linarith : q ≤ 2 ^ 50 + 1) (by norm_num : (0 : ℚ) ≤ 2 ^ 53)
    refine this.trans (by norm_num)
  obtain ⟨r3, r4⟩ := abs_le.mp r2
  clear big2
  have c1 : dim - 1 < ⌈rnd q⌉ := by
    rw [Int.lt_ceil]
    push_cast
    linarith
  have c2 : ⌈rnd q⌉ ≤ dim + 1 := by
    rw [Int.ceil_le]
    push_cast
    linarith
  omega

/-- **C87.** In float64 the widest side of the model (of `scale` millimetres) gets the requested number of voxels or one
    more; in exact arithmetic it gets exactly that number. -/
theorem widest_f64 {lo hi : F64} {dim : Int} (hd : 0 < dim) (hd2 : dim ≤ 2 ^ 50)
    (h1 : (2 : ℚ) ^ (-900 : Int) ≤ (sub hi lo : F64).val) (h2 : (sub hi lo : F64).val ≤ 2 ^ (900 : Int)) :
    voxelsAlong lo hi (div (ofInt dim) (sub hi lo)) = dim ∨ voxelsAlong lo hi (div (ofInt dim) (sub hi lo)) = dim + 1 := by
  have s0 : 0 < (sub hi lo : F64).val := lt_of_lt_of_le (by positivity) h1
  have d1 : (1 : ℚ) ≤ dim := by exact_mod_cast hd
  refine widest_bound hd hd2 s0 ?_
  rw [le_div_iff₀ s0]
  refine le_trans (mul_le_mul_of_nonneg_left h2 (by positivity)) (le_trans ?_ d1)
  rw [← zpow_add₀ (by norm_num)]
  exact zpow_le_one_of_nonpos₀ (by norm_num) (by norm_num)

/-- **C87 (violated).** With 29 voxels along a cube of 7 mm, every side gets 30 voxels in float64; in exact arithmetic a
    side as long as the scale always gets the requested number. -/
theorem widest_extra : (∀ lo : F64, lo = ofInt 0 → voxelsAlong lo (ofInt 7 : F64) (div (ofInt 29) (sub (ofInt 7) lo)) = 30) ∧
    ∀ (lo hi : ℚ) (dim : Int), lo < hi → voxelsAlong lo hi (div (ofInt dim) (sub hi lo)) = dim := by
  refine ⟨fun lo h => by subst h; decide +kernel, fun lo hi dim h => ?_⟩
  have e : (mul (sub hi lo) (div (ofInt dim) (sub hi lo)) : ℚ) = dim := by
    show (hi - lo) * ((dim : ℚ) / (hi - lo)) = dim
    have : hi - lo ≠ 0 := by linarith [sub_pos.mpr h]
    field_simp
  unfold voxelsAlong
  rw [e]
  show (if 0 ≤ ((⌈(dim : ℚ)⌉ : Int) : ℚ) then ⌊((⌈(dim : ℚ)⌉ : Int) : ℚ)⌋ else ⌈((⌈(dim : ℚ)⌉ : Int) : ℚ)⌉) = dim
  split <;> simp

/-- 0.1 mm at 8192 voxels. -/
example := widest_f64 (lo := ofInt 0) (hi := div (ofInt 1) (ofInt 10)) (dim := 8192) (by decide) (by norm_num)
  (by
    refine le_trans (zpow_le_zpow_right₀ (by norm_num) (by norm_num : (-900 : Int) ≤ -4)) ?_
    decide +kernel)
  (by
    refine le_trans ?_ (zpow_le_zpow_right₀ (by norm_num) (by norm_num : (0 : Int) ≤ 900))
    decide +kernel)

/-- The same grid as a float64 model. -/
def tetraGrid : BinVOX F64 := ⟨4, 4, 4, ofInt 0, ofInt 0, ofInt 0, ofInt 1, none, none⟩

theorem tetraGrid_exact : exactModel tetraGrid = gridPart unitBox (ofInt 1) 4 ⟨4, 4, 4⟩ ⟨0, 0, 0⟩ := by
  have h : (ofInt 0 : F64).val = (ofInt 0 : F64).val + ((0 : Int) : ℚ) / ((4 : Int) / (ofInt 1 : F64).val) := by decide +kernel
  have h2 : (ofInt 1 : F64).val = (dimOf 4 4 4 : Int) / ((4 : Int) / (ofInt 1 : F64).val) := by decide +kernel
  unfold exactModel gridPart tetraGrid
  congr 1

theorem tetraGrid_near : NearModel 3 (exactModel tetraGrid) tetraGrid :=
  near_exact (by decide +kernel) (by decide +kernel) (by decide +kernel) (by rw [tetraGrid_exact]; exact tetra_general.lo) (by norm_num)

/-- The tetrahedron voxelized in float64 and in exact arithmetic. -/
example : ∃ (out : BinVOX ℚ) (out' : BinVOX F64), VoxelizeRun (exactModel tetraGrid) (exactMesh tetra) (.ok out) ∧
    VoxelizeRun tetraGrid tetra (.ok out') ∧ ∀ k, out'.white.has k = true ↔ out.white.has k = true := by
  obtain ⟨⟨o, ho⟩, -⟩ := voxelize_defined (exactModel tetraGrid) (exactMesh tetra)
  obtain ⟨⟨o', ho'⟩, -⟩ := voxelize_defined tetraGrid tetra
  obtain ⟨c, rfl, -⟩ := voxelize_exact _ _ (by unfold zeroDim; decide) _ ho
  obtain ⟨c', rfl, -⟩ := voxelize_exact _ _ (by unfold zeroDim; decide) _ ho'
  exact ⟨c, c', ho, ho', fun k => voxelize_f64 tetraGrid_near (by rw [tetraGrid_exact]; exact tetra_general) ho ho' k⟩

end StlDice
