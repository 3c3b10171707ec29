import Verif.Props.Ieee
import Verif.Props.DiceFloat

/-! # Dicing in full float64 (C111) -/

namespace StlDice
open Spec GoFloat BinVOX F64 IeeeL

section
variable {R : ℚ} {mbb : Box F64} {mbb' : Box Ieee} {scale : F64} {scale' : Ieee} {dim : Int} {m : Mesh F64} {n : Mesh Ieee}

theorem job_dim (hj : ModerateJob R mbb scale dim m) : (ofInt dim : F64).val = dim :=
  of_exact (binary64_int (by rw [abs_of_pos hj.dim0]; exact hj.dim1))

theorem job_vpmm (hj : ModerateJob R mbb scale dim m) (hs : Is scale scale') :
    IsP 101 (div (ofInt dim) scale) (div (ofInt dim) scale') ∧ (div (ofInt dim) scale : F64).val ≤ 2 * (dim / scale.val) ∧
      1 / 2 ^ 101 ≤ (div (ofInt dim) scale : F64).val := by
  have V0 : 0 < (dim : ℚ) / scale.val := div_pos (by exact_mod_cast hj.dim0) hj.wide
  have hd : |((dim : Int) : ℚ)| ≤ 2 ^ 53 := by
    rw [abs_of_pos (by exact_mod_cast hj.dim0)]
    exact_mod_cast hj.dim1
  have hv : (div (ofInt dim) scale : F64).val = rnd (dim / scale.val) := by
    show rnd ((ofInt dim : F64).val / scale.val) = _
    rw [job_dim hj]
  refine ⟨Is.div (c := 100) (isP_ofInt hd (by norm_num)).1 hs hj.wide.ne' ?_ (by norm_num), ?_, ?_⟩
  · rw [job_dim hj, abs_of_pos V0]
    exact hj.hi
  · have := rnd_le_double (dim / scale.val)
    rw [abs_of_pos V0] at this
    rw [hv]
    exact (le_abs_self _).trans this
  · rw [hv]
    have h := rnd_mono hj.lo
    have e : rnd (1 / 2 ^ 100 : ℚ) = 1 / 2 ^ 100 := rnd_of_mem ⟨1, -100, by norm_num, by norm_num, by norm_num⟩
    rw [e] at h
    exact le_trans (by norm_num) h

theorem along_is {lo hi : F64} {lo' hi' : Ieee} {v : F64} {v' : Ieee} {V : ℚ} (hR : R ≤ 2 ^ 100) (hl : Is lo lo') (hh : Is hi hi')
    (hlR : |lo.val| ≤ R) (hhR : |hi.val| ≤ R) (hup : lo.val ≤ hi.val) (hv : IsP 101 v v') (v0 : 0 ≤ v.val) (hvV : v.val ≤ 2 * V)
    (hVR : V * R ≤ 2 ^ 40) :
    voxelsAlong lo' hi' v' = voxelsAlong lo hi v ∧ 0 ≤ voxelsAlong lo hi v ∧ voxelsAlong lo hi v ≤ 2 ^ 46 := by
  have R0 : 0 ≤ R := (abs_nonneg _).trans hlR
  have hs : IsP 102 (sub hi lo) (sub hi' lo') := (is_pow hh hhR hR).sub 100 (is_pow hl hlR hR) (by norm_num) (by norm_num) (by norm_num)
  have hm : IsP 204 (mul (sub hi lo) v) (mul (sub hi' lo') v') := hs.mul hv (by norm_num)
  have m0 : 0 ≤ (mul (sub hi lo) v : F64).val := by
    show 0 ≤ rnd (rnd (hi.val - lo.val) * v.val)
    exact rnd_nonneg (mul_nonneg (rnd_nonneg (by linarith)) v0)
  have hb : (mul (sub hi lo) v : F64).val ≤ 2 ^ 44 := by
    show rnd (rnd (hi.val - lo.val) * v.val) ≤ 2 ^ 44
    have a1 := rnd_le_double (hi.val - lo.val)
    have a2 := abs_sub hi.val lo.val
    have a3 := rnd_le_double (rnd (hi.val - lo.val) * v.val)
    rw [abs_mul, abs_of_nonneg v0] at a3
    have a4 : |rnd (hi.val - lo.val)| * v.val ≤ 4 * R * (2 * V) := mul_le_mul (by linarith) hvV v0 (by linarith)
    have a5 := le_abs_self (rnd (rnd (hi.val - lo.val) * v.val))
    have : (2 : ℚ) ^ 44 = 16 * 2 ^ 40 := by norm_num
    linarith
  have hm2 : IsP 44 (mul (sub hi lo) v) (mul (sub hi' lo') v') := ⟨hm.1, by rw [abs_of_nonneg m0]; exact hb⟩
  have hc : IsP 46 (ceil (mul (sub hi lo) v)) (ceil (mul (sub hi' lo') v')) := hm2.ceil (by norm_num)
  refine ⟨toInt_is hc (by norm_num), ?_⟩
  unfold voxelsAlong
  generalize (mul (sub hi lo) v : F64) = z at *
  have c0 : 0 ≤ (ceil z : F64).val := by
    show 0 ≤ rnd ((z.val.ceil : Int) : ℚ)
    apply rnd_nonneg
    have : 0 ≤ z.val.ceil := by
      have := Rat.le_ceil (x := z.val)
      have h : (0 : ℚ) ≤ (z.val.ceil : ℚ) := m0.trans this
      exact_mod_cast h
    exact_mod_cast this
  have c1 := (abs_le.mp hc.2).2
  show 0 ≤ (if 0 ≤ (ceil z : F64).val then (ceil z : F64).val.floor else (ceil z : F64).val.ceil) ∧ (if 0 ≤ (ceil z : F64).val then (ceil z : F64).val.floor else (ceil z : F64).val.ceil) ≤ 2 ^ 46
  rw [if_pos c0]
  constructor
  · exact Rat.le_floor_iff.mpr (by exact_mod_cast c0)
  · have h := (Rat.floor_le (ceil z : F64).val).trans c1
    exact_mod_cast h

theorem tdiv_le {M k : Int} (h : 0 ≤ M) (hk : 0 < k) : 0 ≤ M.tdiv k ∧ M.tdiv k ≤ M := by
  rw [Int.tdiv_eq_ediv_of_nonneg h]
  exact ⟨Int.ediv_nonneg h hk.le, Int.ediv_le_self _ h⟩

/-- **C111.** The layout of a job is the same in full float64: the same numbers of voxels, or the same refusal. -/
theorem layout_ieee (hj : ModerateJob R mbb scale dim m) (hb : IsBox mbb mbb') (hs : Is scale scale') {nx ny nz : Int} (hx : 0 < nx)
    (hy : 0 < ny) (hz : 0 < nz) :
    (layout mbb scale dim nx ny nz = .err ∧ layout mbb' scale' dim nx ny nz = .err) ∨
    ∃ L K, layout mbb scale dim nx ny nz = .ok L ∧ layout mbb' scale' dim nx ny nz = .ok K ∧ IsLayout L K := by
  obtain ⟨hv, hv2, hv1⟩ := job_vpmm hj hs
  have v0 : 0 < (div (ofInt dim) scale : F64).val := lt_of_lt_of_le (by positivity) hv1
  obtain ⟨⟨bx, by_, bz⟩, cx, cy, cz⟩ := hb
  obtain ⟨⟨wx, wy, wz⟩, ux, uy, uz⟩ := hj.box
  obtain ⟨ax, lx, kx⟩ := along_is hj.reach bx cx wx ux hj.up.1 hv v0.le hv2 hj.grid
  obtain ⟨ay, ly, ky⟩ := along_is hj.reach by_ cy wy uy hj.up.2.1 hv v0.le hv2 hj.grid
  obtain ⟨az, lz, kz⟩ := along_is hj.reach bz cz wz uz hj.up.2.2 hv v0.le hv2 hj.grid
  have hm : IsP 102 (div (ofInt 1) (div (ofInt dim) scale)) (div (ofInt 1) (div (ofInt dim) scale')) := by
    refine Is.div (c := 101) isP_one.1 hv.1 v0.ne' ?_ (by norm_num)
    rw [val_one, abs_of_pos (by positivity), div_le_iff₀ v0]
    have := mul_le_mul_of_nonneg_left hv1 (by positivity : (0 : ℚ) ≤ 2 ^ 101)
    rwa [mul_one_div, div_self (by positivity)] at this
  unfold layout
  dsimp only
  have n0 : ¬ (nx = 0 ∨ ny = 0 ∨ nz = 0) := by omega
  rw [if_neg n0, if_neg n0, ax, ay, az]
  generalize voxelsAlong mbb.Min.X mbb.Max.X (div (ofInt dim) scale) = X at *
  generalize voxelsAlong mbb.Min.Y mbb.Max.Y (div (ofInt dim) scale) = Y at *
  generalize voxelsAlong mbb.Min.Z mbb.Max.Z (div (ofInt dim) scale) = Z at *
  by_cases h0 : X.tdiv nx = 0 ∨ Y.tdiv ny = 0 ∨ Z.tdiv nz = 0
  · left
    exact ⟨if_pos h0, if_pos h0⟩
  · right
    rw [if_neg h0, if_neg h0]
    refine ⟨_, _, rfl, rfl, hv.1, hm.1, rfl, rfl, rfl, rfl, rfl, rfl, ?_⟩
    have hX := tdiv_le lx hx
    have hY := tdiv_le ly hy
    have hZ := tdiv_le lz hz
    have hd : |((dimOf (X.tdiv nx) (Y.tdiv ny) (Z.tdiv nz) : Int) : ℚ)| ≤ 2 ^ 46 := by
      have h1 : dimOf (X.tdiv nx) (Y.tdiv ny) (Z.tdiv nz) ≤ 2 ^ 46 := dimOf_le_of (by omega) (by omega) (by omega)
      have h2 := (le_dimOf (X.tdiv nx) (Y.tdiv ny) (Z.tdiv nz)).1
      have h3 : |dimOf (X.tdiv nx) (Y.tdiv ny) (Z.tdiv nz)| ≤ 2 ^ 46 := by rw [abs_of_nonneg (by omega)]; exact h1
      exact_mod_cast h3
    exact ((isP_ofInt hd (by norm_num)).mul hm (by norm_num)).1

/-- What a successful layout of a moderate job says about the numbers of voxels. -/
theorem layout_bounds (hj : ModerateJob R mbb scale dim m) (hs : Is scale scale') (hb : IsBox mbb mbb') {nx ny nz : Int} (hx : 0 < nx)
    (hy : 0 < ny) (hz : 0 < nz) {L : Layout F64} (h : layout mbb scale dim nx ny nz = .ok L) {t : Key}
    (ht : t ∈ tileIndices nx ny nz) :
    (0 < L.dimX ∧ 0 ≤ t.X * L.dimX ∧ t.X * L.dimX + L.dimX ≤ 2 ^ 46) ∧ (0 < L.dimY ∧ 0 ≤ t.Y * L.dimY ∧ t.Y * L.dimY + L.dimY ≤ 2 ^ 46) ∧
      (0 < L.dimZ ∧ 0 ≤ t.Z * L.dimZ ∧ t.Z * L.dimZ + L.dimZ ≤ 2 ^ 46) := by
  obtain ⟨hv, hv2, hv1⟩ := job_vpmm hj hs
  have v0 : 0 < (div (ofInt dim) scale : F64).val := lt_of_lt_of_le (by positivity) hv1
  obtain ⟨⟨bx, by_, bz⟩, cx, cy, cz⟩ := hb
  obtain ⟨⟨wx, wy, wz⟩, ux, uy, uz⟩ := hj.box
  obtain ⟨_, lx, kx⟩ := along_is hj.reach bx cx wx ux hj.up.1 hv v0.le hv2 hj.grid
  obtain ⟨_, ly, ky⟩ := along_is hj.reach by_ cy wy uy hj.up.2.1 hv v0.le hv2 hj.grid
  obtain ⟨_, lz, kz⟩ := along_is hj.reach bz cz wz uz hj.up.2.2 hv v0.le hv2 hj.grid
  obtain ⟨_, _, _, dx0, dy0, dz0, ev, -, ex, ey, ez, fx, fy, fz, -⟩ := layout_ok h
  rw [ev] at ex ey ez
  rw [← ex] at lx kx
  rw [← ey] at ly ky
  rw [← ez] at lz kz
  rw [mem_tileIndices] at ht
  obtain ⟨tx0, tx1, ty0, ty1, tz0, tz1⟩ := ht
  have axis : ∀ {M n d i : Int}, 0 ≤ M → M ≤ 2 ^ 46 → 0 < n → d ≠ 0 → d = M.tdiv n → 0 ≤ i → i < n →
      0 < d ∧ 0 ≤ i * d ∧ i * d + d ≤ 2 ^ 46 := by
    intro M n d i hM hM2 hn hd e h0 h1
    rw [Int.tdiv_eq_ediv_of_nonneg hM] at e
    have d0 : 0 ≤ d := by rw [e]; exact Int.ediv_nonneg hM hn.le
    have dp : 0 < d := by omega
    refine ⟨dp, Int.mul_nonneg h0 d0, ?_⟩
    have a : n * d ≤ M := by rw [e]; exact Int.mul_ediv_self_le hn.ne'
    have c : (i + 1) * d ≤ n * d := Int.mul_le_mul_of_nonneg_right (by omega) d0
    rw [Int.add_mul, Int.one_mul] at c
    omega
  exact ⟨axis lx kx hx dx0 fx tx0 tx1, axis ly ky hy dy0 fy ty0 ty1, axis lz kz hz dz0 fz tz0 tz1⟩

/-- A tile in full float64 is the tile with rounding alone. -/
theorem tile_ieee (hj : ModerateJob R mbb scale dim m) (hb : IsBox mbb mbb') (hs : Is scale scale')
    {nx ny nz : Int} (hx : 0 < nx) (hy : 0 < ny) (hz : 0 < nz) {L : Layout F64} {K : Layout Ieee}
    (h : layout mbb scale dim nx ny nz = .ok L) (h' : layout mbb' scale' dim nx ny nz = .ok K)
    {t : Key} (ht : t ∈ tileIndices nx ny nz) :
    IsLayout L K ∧ IsModel (tileModel L mbb t) (tileModel K mbb' t) ∧
      ModerateVox (2 * (R + 2 ^ 46 / (dim / scale.val))) (tileModel L mbb t) m := by
  have hLK : IsLayout L K := by
    rcases layout_ieee hj hb hs hx hy hz with ⟨e, -⟩ | ⟨L2, K2, e1, e2, hl⟩
    · rw [h] at e; cases e
    · rw [h] at e1; rw [h'] at e2
      injection e1 with e1; injection e2 with e2
      subst e1 e2
      exact hl
  refine ⟨hLK, ?_⟩
  obtain ⟨⟨px, ox, bx⟩, ⟨py, oy, by_⟩, ⟨pz, oz, bz⟩⟩ := layout_bounds hj hs hb hx hy hz h ht
  obtain ⟨hv, hv2, hv1⟩ := job_vpmm hj hs
  have v0 : 0 < (div (ofInt dim) scale : F64).val := lt_of_lt_of_le (by positivity) hv1
  obtain ⟨_, _, _, _, _, _, ev, em, _, _, _, _, _, _, es⟩ := layout_ok h
  have V0 : 0 < (dim : ℚ) / scale.val := div_pos (by exact_mod_cast hj.dim0) hj.wide
  have hDle : dimOf L.dimX L.dimY L.dimZ ≤ 2 ^ 46 := dimOf_le_of (by omega) (by omega) (by omega)
  have hDpos := (le_dimOf L.dimX L.dimY L.dimZ).1
  have R0 : 0 ≤ R := (abs_nonneg _).trans hj.box.1.1
  have lo1 := hj.lo
  have hi1 := hj.hi
  have hg1 := hj.grid
  -- the tile is a part of the grid
  have nT := tile_near (R := R + 2 ^ 46 / (dim / scale.val)) (t := t) h (by rw [abs_of_pos hj.dim0]; exact hj.dim1)
    (le_trans (by
      rw [show (1 : ℚ) / 2 ^ 100 = 2 ^ (-100 : Int) by rw [zpow_neg, one_div]; norm_cast]
      exact zpow_le_zpow_right₀ (by norm_num) (by norm_num)) hj.lo)
    (hj.hi.trans (by
      rw [show (2 : ℚ) ^ 100 = 2 ^ (100 : Int) by norm_cast]
      exact zpow_le_zpow_right₀ (by norm_num) (by norm_num)))
    px (by omega) ⟨⟨ox, by omega⟩, ⟨oy, by omega⟩, ⟨oz, by omega⟩⟩
    (add_le_add hj.box.1.1 (div_le_div_of_nonneg_right (by exact_mod_cast (by omega : t.X * L.dimX ≤ 2 ^ 46)) V0.le))
    (add_le_add hj.box.1.2.1 (div_le_div_of_nonneg_right (by exact_mod_cast (by omega : t.Y * L.dimY ≤ 2 ^ 46)) V0.le))
    (add_le_add hj.box.1.2.2 (div_le_div_of_nonneg_right (by exact_mod_cast (by omega : t.Z * L.dimZ ≤ 2 ^ 46)) V0.le))
  have vV := gridPart_vpmm (mbb := mbb) (n := ⟨L.dimX, L.dimY, L.dimZ⟩)
    (o := ⟨t.X * L.dimX, t.Y * L.dimY, t.Z * L.dimZ⟩) V0 px
  have hp := nT.pitch
  have htx := nT.tx
  have hty := nT.ty
  have htz := nT.tz
  rw [vV] at hp
  have off : ∀ {c : ℚ} {k d : Int}, |c| ≤ R → 0 ≤ k → k ≤ 2 ^ 46 →
      |c + (k : ℚ) / (dim / scale.val)| ≤ R + 2 ^ 46 / (dim / scale.val) := by
    intro c k d hc h0 h1
    have a := abs_add_le c ((k : ℚ) / (dim / scale.val))
    have k0 : (0 : ℚ) ≤ k := by exact_mod_cast h0
    have k1 : (k : ℚ) ≤ 2 ^ 46 := by exact_mod_cast h1
    rw [abs_of_nonneg (by positivity : 0 ≤ (k : ℚ) / (dim / scale.val))] at a
    have := div_le_div_of_nonneg_right k1 V0.le
    linarith
  have ax := off (d := 0) hj.box.1.1 ox (by omega)
  have ay := off (d := 0) hj.box.1.2.1 oy (by omega)
  have az := off (d := 0) hj.box.1.2.2 oz (by omega)
  have Rn0 : 0 ≤ R + 2 ^ 46 / (dim / scale.val) := by positivity
  have close : ∀ {x y : ℚ}, |x - y| ≤ (R + 2 ^ 46 / (dim / scale.val)) / 2 ^ 48 → |y| ≤ R + 2 ^ 46 / (dim / scale.val) →
      |x| ≤ 2 * (R + 2 ^ 46 / (dim / scale.val)) := by
    intro x y h1 h2
    have a : |x| ≤ |x - y| + |y| := by
      have := abs_add_le (x - y) y
      rwa [sub_add_cancel] at this
    have b : (R + 2 ^ 46 / (dim / scale.val)) / 2 ^ 48 ≤ R + 2 ^ 46 / (dim / scale.val) := div_le_self Rn0 (by norm_num)
    linarith
  have hp2 := abs_le.mp hp
  have small : (dim : ℚ) / scale.val / 2 ^ 50 ≤ dim / scale.val / 2 := div_le_div_of_nonneg_left V0.le (by norm_num) (by norm_num)
  have inv : (2 : ℚ) ^ 46 / (dim / scale.val) ≤ 2 ^ 146 := by
    rw [div_le_iff₀ V0]
    have := mul_le_mul_of_nonneg_left lo1 (by positivity : (0 : ℚ) ≤ 2 ^ 146)
    refine le_trans (le_of_eq ?_) this
    norm_num
  have hmod : ModerateVox (2 * (R + 2 ^ 46 / (dim / scale.val))) (tileModel L mbb t) m := by
    refine ⟨?_, ?_, ?_, ?_, ?_, ⟨close htx ax, close hty ay, close htz az⟩, ?_, hj.normals⟩
    · have := hj.reach
      have : (2 : ℚ) ^ 100 + 2 ^ 146 ≤ 2 ^ 199 := by norm_num
      have : (2 : ℚ) ^ 200 = 2 * 2 ^ 199 := by norm_num
      linarith
    · have : (1 : ℚ) / 2 ^ 200 ≤ 1 / 2 ^ 100 / 2 := by norm_num
      linarith
    · have : (2 : ℚ) * 2 ^ 100 ≤ 2 ^ 200 := by norm_num
      linarith
    · have hv3 : (tileModel L mbb t).VoxelsPerMM.val ≤ 2 * (dim / scale.val) := by linarith
      have a := mul_le_mul_of_nonneg_right hv3 (by positivity : 0 ≤ 2 * (R + 2 ^ 46 / (dim / scale.val)))
      have e : 2 * ((dim : ℚ) / scale.val) * (2 * (R + 2 ^ 46 / (dim / scale.val))) = 4 * (dim / scale.val * R + 2 ^ 46) := by
        have hne := V0.ne'
        generalize (dim : ℚ) / scale.val = V at hne
        field_simp
        ring
      rw [e] at a
      have : (4 : ℚ) * (2 ^ 40 + 2 ^ 46) ≤ 2 ^ 50 := by norm_num
      linarith
    · show |dimOf L.dimX L.dimY L.dimZ| ≤ 2 ^ 62
      rw [abs_of_nonneg (by omega)]
      omega
    · intro p hp
      have wide : ∀ {v : Vec F64}, PointWithin R v → PointWithin (2 * (R + 2 ^ 46 / (dim / scale.val))) v := by
        intro v hv
        have : R ≤ 2 * (R + 2 ^ 46 / (dim / scale.val)) := by
          have : (0 : ℚ) ≤ 2 ^ 46 / (dim / scale.val) := by positivity
          linarith
        exact ⟨hv.1.trans this, hv.2.1.trans this, hv.2.2.trans this⟩
      obtain ⟨p1, p2, p3⟩ := hj.points p hp
      exact ⟨wide p1, wide p2, wide p3⟩
  -- the tile is the same model
  have hm : IsP 102 L.mmpv K.mmpv := by
    refine ⟨hLK.mmpv, ?_⟩
    rw [em, ev]
    show |rnd ((ofInt 1 : F64).val / (div (ofInt dim) scale : F64).val)| ≤ _
    apply rnd_pow (n := 101)
    rw [val_one, abs_of_pos (by positivity), div_le_iff₀ v0]
    have := mul_le_mul_of_nonneg_left hv1 (by positivity : (0 : ℚ) ≤ 2 ^ 101)
    rwa [mul_one_div, div_self (by positivity)] at this
  have corner : ∀ {c : F64} {c' : Ieee} {i : Int}, Is c c' → |c.val| ≤ R → 0 ≤ i → i ≤ 2 ^ 46 →
      Is (add c (mul (ofInt i) L.mmpv)) (add c' (mul (ofInt i) K.mmpv)) := by
    intro c c' i hc hcR h0 h1
    have hi : |((i : Int) : ℚ)| ≤ 2 ^ 46 := by
      have : |i| ≤ 2 ^ 46 := by rw [abs_of_nonneg h0]; exact h1
      exact_mod_cast this
    exact ((is_pow hc hcR hj.reach).add 150 ((isP_ofInt hi (by norm_num)).mul hm (by norm_num)) (by norm_num) (by norm_num)
      (by norm_num)).1
  have hIM : IsModel (tileModel L mbb t) (tileModel K mbb' t) := by
    refine ⟨hLK.dimX, hLK.dimY, hLK.dimZ, ?_, ?_, ?_, hLK.subScale, rfl, rfl⟩
    · show Is (add mbb.Min.X (mul (ofInt (t.X * L.dimX)) L.mmpv)) (add mbb'.Min.X (mul (ofInt (t.X * K.dimX)) K.mmpv))
      rw [hLK.dimX]
      exact corner hb.1.1 hj.box.1.1 ox (by omega)
    · show Is (add mbb.Min.Y (mul (ofInt (t.Y * L.dimY)) L.mmpv)) (add mbb'.Min.Y (mul (ofInt (t.Y * K.dimY)) K.mmpv))
      rw [hLK.dimY]
      exact corner hb.1.2.1 hj.box.1.2.1 oy (by omega)
    · show Is (add mbb.Min.Z (mul (ofInt (t.Z * L.dimZ)) L.mmpv)) (add mbb'.Min.Z (mul (ofInt (t.Z * K.dimZ)) K.mmpv))
      rw [hLK.dimZ]
      exact corner hb.1.2.2 hj.box.1.2.2 oz (by omega)
  exact ⟨hIM, hmod⟩

/-- **C111.** A job diced in full float64 stores in each tile exactly the voxels of rounding alone, under every schedule. -/
theorem dice_ieee (hj : ModerateJob R mbb scale dim m) (hb : IsBox mbb mbb') (hs : Is scale scale') (hn : IsMesh m n)
    {nx ny nz : Int} (hx : 0 < nx) (hy : 0 < ny) (hz : 0 < nz) {L : Layout F64} {K : Layout Ieee}
    (h : layout mbb scale dim nx ny nz = .ok L) (h' : layout mbb' scale' dim nx ny nz = .ok K)
    {t : Key} (ht : t ∈ tileIndices nx ny nz) {tile : BinVOX F64} (htile : VoxelizeRun (tileModel L mbb t) m (.ok tile))
    {tile' : BinVOX Ieee} (htile' : VoxelizeRun (tileModel K mbb' t) n (.ok tile')) (k : Key) :
    IsLayout L K ∧ (tile'.white.has k = true ↔ tile.white.has k = true) := by
  obtain ⟨hLK, hIM, hmod⟩ := tile_ieee hj hb hs hx hy hz h h' ht
  exact ⟨hLK, voxelize_ieee hIM hn hmod htile htile' k⟩

end
end StlDice
