import Verif.Props.VoxelRows
import Verif.Spec.AccuracyFloat

/-! # The voxels of the surface lie on the surface, in float64 (C103) -/

namespace StlDice
open Spec GoFloat BinVOX F64

/-! ## Cut points -/

/-- A quotient rounded into the unit interval was not far from it. -/
theorem quot_range {q : ℚ} (h0 : 0 ≤ rnd q) (h1 : rnd q ≤ 1) : |q| ≤ 2 := by
  rw [abs_le]
  constructor
  · by_contra h
    push Not at h
    have := rnd_le_of h.le ⟨-2, 0, by norm_num, by norm_num, by norm_num⟩
    linarith
  · by_contra h
    push Not at h
    have := le_rnd_of h.le ⟨2, 0, by norm_num, by norm_num, by norm_num⟩
    linarith

theorem sub_error {x y : ℚ} (hx : Binary64 x) (hy : Binary64 y) : |rnd (x - y) - (x - y)| ≤ |x - y| / 2 ^ 53 := by
  have := add_error hx (binary64_neg hy)
  rwa [← sub_eq_add_neg] at this

/-- How far the computed parameter of the cut is from the quotient. -/
theorem param_error {q : ℚ} (h0 : 0 ≤ rnd q) (h1 : rnd q ≤ 1) : |rnd q - q| ≤ 3 / 2 ^ 53 := by
  have r := rnd_error_abs q
  have a := quot_range h0 h1
  have b := div_le_div_of_nonneg_right a (by norm_num : (0 : ℚ) ≤ 2 ^ 53)
  have t := tiny_le (q := 1 / 2 ^ 53) (by norm_num)
  have e : (3 / 2 ^ 53 : ℚ) = 2 / 2 ^ 53 + 1 / 2 ^ 53 := by norm_num
  rw [e]
  linarith

/-- The point of the edge at the computed parameter is at the height of the slice. -/
theorem height_error {R z0 z1 h : ℚ} (hR : 0 < R) (b0 : Binary64 z0) (b1 : Binary64 z1) (bh : Binary64 h) (h0 : |z0| ≤ R)
    (h1 : |z1| ≤ R) (hh : |h| ≤ 4 * R) (hd : rnd (z1 - z0) ≠ 0) (t0 : 0 ≤ rnd (rnd (h - z0) / rnd (z1 - z0)))
    (t1 : rnd (rnd (h - z0) / rnd (z1 - z0)) ≤ 1) :
    |z0 + rnd (rnd (h - z0) / rnd (z1 - z0)) * (z1 - z0) - h| ≤ R / 2 ^ 48 := by
  have pe := param_error t0 t1
  have qr := quot_range t0 t1
  have en := sub_error bh b0
  have ed := sub_error b1 b0
  have hn : rnd (h - z0) = rnd (h - z0) / rnd (z1 - z0) * rnd (z1 - z0) := (div_mul_cancel₀ _ hd).symm
  generalize rnd (h - z0) / rnd (z1 - z0) = q at *
  rw [hn] at en
  generalize rnd (z1 - z0) = d' at *
  have dn : |h - z0| ≤ 5 * R := by have := abs_sub h z0; linarith
  have dd : |z1 - z0| ≤ 2 * R := by have := abs_sub z1 z0; linarith
  have s : z0 + rnd q * (z1 - z0) - h = (z1 - z0) * (rnd q - q) + (-(q * (d' - (z1 - z0))) + (q * d' - (h - z0))) := by ring
  rw [s]
  have a1 : |(z1 - z0) * (rnd q - q)| ≤ 6 * (R / 2 ^ 53) := by
    rw [abs_mul]
    refine (mul_le_mul dd pe (abs_nonneg _) (by linarith)).trans (le_of_eq ?_)
    ring
  have a2 : |-(q * (d' - (z1 - z0)))| ≤ 4 * (R / 2 ^ 53) := by
    rw [abs_neg, abs_mul]
    refine (mul_le_mul qr (ed.trans (div_le_div_of_nonneg_right dd (by norm_num))) (abs_nonneg _) (by norm_num)).trans (le_of_eq ?_)
    ring
  have a3 : |q * d' - (h - z0)| ≤ 5 * (R / 2 ^ 53) := by
    refine (en.trans (div_le_div_of_nonneg_right dn (by norm_num))).trans (le_of_eq ?_)
    ring
  refine ((abs_add_le _ _).trans (add_le_add_right (abs_add_le _ _) _)).trans ?_
  have : R / 2 ^ 48 = 32 * (R / 2 ^ 53) := by ring
  have : 0 < R / 2 ^ 53 := by positivity
  linarith

/-- The computed parameter against the exact one. -/
theorem ratio_close {z0 z1 h : ℚ} (b0 : Binary64 z0) (b1 : Binary64 z1) (bh : Binary64 h) (hz : z1 - z0 ≠ 0)
    (hd : rnd (z1 - z0) ≠ 0) (t0 : 0 ≤ rnd (rnd (h - z0) / rnd (z1 - z0))) (t1 : rnd (rnd (h - z0) / rnd (z1 - z0)) ≤ 1)
    (e0 : 0 ≤ (h - z0) / (z1 - z0)) (e1 : (h - z0) / (z1 - z0) ≤ 1) :
    |rnd (rnd (h - z0) / rnd (z1 - z0)) - (h - z0) / (z1 - z0)| ≤ 6 / 2 ^ 53 := by
  have pe := param_error t0 t1
  have qr := quot_range t0 t1
  have en := sub_error bh b0
  have ed := sub_error b1 b0
  have hn : rnd (h - z0) = rnd (h - z0) / rnd (z1 - z0) * rnd (z1 - z0) := (div_mul_cancel₀ _ hd).symm
  have hn' : h - z0 = (h - z0) / (z1 - z0) * (z1 - z0) := (div_mul_cancel₀ _ hz).symm
  generalize rnd (h - z0) / rnd (z1 - z0) = q at *
  rw [hn] at en
  clear hn
  generalize rnd (z1 - z0) = d' at *
  generalize (h - z0) / (z1 - z0) = t at *
  rw [hn'] at en
  generalize z1 - z0 = d at *
  have dp : 0 < |d| := abs_pos.mpr hz
  have a : |q - t| * |d| ≤ 3 / 2 ^ 53 * |d| := by
    rw [← abs_mul]
    have s : (q - t) * d = (q * d' - t * d) + -(q * (d' - d)) := by ring
    rw [s]
    refine (abs_add_le _ _).trans ?_
    rw [abs_neg, abs_mul q]
    have c1 := mul_le_mul qr ed (abs_nonneg _) (by norm_num)
    have c2 : |t * d| ≤ |d| := by
      rw [abs_mul, abs_of_nonneg e0]
      have := mul_le_mul_of_nonneg_right e1 dp.le
      linarith
    have c3 := div_le_div_of_nonneg_right c2 (by norm_num : (0 : ℚ) ≤ 2 ^ 53)
    have c4 : 3 / 2 ^ 53 * |d| = |d| / 2 ^ 53 + 2 * (|d| / 2 ^ 53) := by ring
    linarith
  have a' := le_of_mul_le_mul_right a dp
  have tri := abs_sub_le (rnd q) q t
  have e : (6 / 2 ^ 53 : ℚ) = 3 / 2 ^ 53 + 3 / 2 ^ 53 := by norm_num
  rw [e]
  linarith

/-- What a cut in float64 says about the edge. -/
theorem cut_f64 {R : ℚ} {p q w : Vec F64} {h : F64} (hp : Within R (exactVec p)) (hq : Within R (exactVec q))
    (hh : |h.val| ≤ 4 * R) (hw : intersectSegment p q h = some w) :
    1 / 2 ^ 40 ≤ R ∧ ∃ t, 0 ≤ t ∧ t ≤ 1 ∧ |w.X.val - (along (exactVec p) (exactVec q) t).X| ≤ R / 2 ^ 48 ∧
      |w.Y.val - (along (exactVec p) (exactVec q) t).Y| ≤ R / 2 ^ 48 ∧
      |(along (exactVec p) (exactVec q) t).Z - h.val| ≤ R / 2 ^ 48 := by
  rw [intersectSegment_f64] at hw
  split at hw
  · cases hw
  rename_i hf
  split at hw
  · cases hw
  rename_i ht
  push Not at ht
  obtain ⟨t0, t1⟩ := ht
  injection hw with hw
  obtain ⟨px, py, pz⟩ := hp
  obtain ⟨qx, qy, qz⟩ := hq
  have f0 : (0 : ℚ) < flatLimit := by unfold flatLimit; norm_num
  have big : (2 : ℚ) ^ (-1022 : Int) ≤ flatLimit := by
    refine le_trans (zpow_le_zpow_right₀ (by norm_num) (by norm_num : (-1022 : Int) ≤ -40)) ?_
    unfold flatLimit; norm_num
  have hfl : flatLimit / 2 ≤ rnd flatLimit := by
    have := rnd_error (q := flatLimit) (by rw [abs_of_pos f0]; exact big)
    rw [abs_of_pos f0] at this
    obtain ⟨l, -⟩ := abs_le.mp this
    have : flatLimit / 2 ^ 53 ≤ flatLimit / 2 := div_le_div_of_nonneg_left f0.le (by norm_num) (by norm_num)
    linarith
  have hst : flatLimit / 2 ≤ |rnd (q.Z.val - p.Z.val)| := by
    by_contra hc
    push Not at hc
    exact hf (abs_lt.mp (lt_of_lt_of_le hc hfl))
  have hd : rnd (q.Z.val - p.Z.val) ≠ 0 := by
    intro h0
    rw [h0, abs_zero] at hst
    linarith
  have hR : 1 / 2 ^ 40 ≤ R := by
    have e := sub_error (val_mem q.Z) (val_mem p.Z)
    have dd : |q.Z.val - p.Z.val| ≤ 2 * R := by
      have := abs_sub q.Z.val p.Z.val
      have a1 : |q.Z.val| ≤ R := qz
      have a2 : |p.Z.val| ≤ R := pz
      linarith
    have := abs_sub_abs_le_abs_sub (rnd (q.Z.val - p.Z.val)) (q.Z.val - p.Z.val)
    have a3 : |q.Z.val - p.Z.val| / 2 ^ 53 ≤ |q.Z.val - p.Z.val| / 1 :=
      div_le_div_of_nonneg_left (abs_nonneg _) (by norm_num) (by norm_num)
    have a4 : (1 / 2 ^ 40 : ℚ) ≤ flatLimit / 2 / 4 := by unfold flatLimit; norm_num
    linarith
  have R0 : 0 < R := lt_of_lt_of_le (by norm_num) hR
  refine ⟨hR, _, t0, t1, ?_, ?_, ?_⟩
  · have := point_error hR (val_mem p.X) px (val_mem q.X) qx t0 t1 (le_of_eq (by rw [sub_self, abs_zero]))
    rw [mul_zero, zero_add] at this
    rw [← hw]
    unfold along
    rw [mul_comm _ ((exactVec q).X - (exactVec p).X)]
    exact this
  · have := point_error hR (val_mem p.Y) py (val_mem q.Y) qy t0 t1 (le_of_eq (by rw [sub_self, abs_zero]))
    rw [mul_zero, zero_add] at this
    rw [← hw]
    unfold along
    rw [mul_comm _ ((exactVec q).Y - (exactVec p).Y)]
    exact this
  · exact height_error R0 (val_mem p.Z) (val_mem q.Z) (val_mem h) pz qz hh hd t0 t1

/-! ## Grid coordinates -/

/-- The position in voxels the program computes before cutting off. -/
def gridPos (v c t : F64) : ℚ := rnd (v.val * rnd (c.val - t.val))

theorem gridCoord_pos (v c t : F64) : gridCoord v c t = ⌊gridPos v c t⌋ := by
  unfold gridCoord gridPos
  have hz : (mul v (sub c t) : F64).val = rnd (v.val * rnd (c.val - t.val)) := rfl
  rw [← hz]
  generalize (mul v (sub c t) : F64) = z
  have hf : (floor z : F64).val = ((z.val.floor : Int) : ℚ) := of_exact (binary64_floor (val_mem z))
  show (if 0 ≤ (floor z : F64).val then (floor z : F64).val.floor else (floor z : F64).val.ceil) = z.val.floor
  rw [hf, Rat.floor_intCast, Rat.ceil_intCast, ite_self]

theorem along_within {R : ℚ} {p q : Vec ℚ} (hp : Within R p) (hq : Within R q) {t : ℚ} (h0 : 0 ≤ t) (h1 : t ≤ 1) :
    Within R (along p q t) := by
  have f : ∀ x y : ℚ, |x| ≤ R → |y| ≤ R → |x + t * (y - x)| ≤ R := by
    intro x y hx hy
    rw [abs_le] at *
    have s : 0 ≤ 1 - t := by linarith
    have a1 := mul_nonneg s (by linarith : 0 ≤ x + R)
    have a2 := mul_nonneg s (by linarith : 0 ≤ R - x)
    have a3 := mul_nonneg h0 (by linarith : 0 ≤ y + R)
    have a4 := mul_nonneg h0 (by linarith : 0 ≤ R - y)
    constructor <;> linarith
  exact ⟨f _ _ hp.1 hq.1, f _ _ hp.2.1 hq.2.1, f _ _ hp.2.2 hq.2.2⟩

/-- The computed slice height. -/
theorem height_within {R : ℚ} {b : BinVOX ℚ} {b' : BinVOX F64} {m : Mesh ℚ} (hn : NearModel R b b') (hg : InReach R b m)
    {zi : Int} (h0 : 0 ≤ zi) (h1 : zi < b.NZ) : |(sliceHeight b' zi).val| ≤ 4 * R := by
  have hz := sliceHeight_f64 hn hg h0 h1
  obtain ⟨V0, -⟩ := near_vpmm hg.lo hg.hi hn.pitch
  have R0 : 0 ≤ R := (abs_nonneg _).trans hg.corner.2.2
  have zb : |sliceMiddle b zi| ≤ 2 * R := by
    unfold sliceMiddle
    have z0 : (0 : ℚ) ≤ zi := by exact_mod_cast h0
    have c := abs_add_le b.TZ (((zi : ℚ) + 1 / 2) / b.VoxelsPerMM)
    rw [abs_of_nonneg (by positivity : 0 ≤ ((zi : ℚ) + 1 / 2) / b.VoxelsPerMM)] at c
    have d : ((zi : ℚ) + 1 / 2) / b.VoxelsPerMM ≤ R := by
      refine le_trans (div_le_div_of_nonneg_right ?_ V0.le) hg.top
      have : ((zi + 1 : Int) : ℚ) ≤ b.NZ := by exact_mod_cast h1
      push_cast at this
      linarith
    have := hg.corner.2.2
    linarith
  have c : |(sliceHeight b' zi).val| ≤ |(sliceHeight b' zi).val - sliceMiddle b zi| + |sliceMiddle b zi| := by
    have := abs_add_le ((sliceHeight b' zi).val - sliceMiddle b zi) (sliceMiddle b zi)
    rwa [sub_add_cancel] at this
  have : R / 2 ^ 46 ≤ R / 1 := div_le_div_of_nonneg_left R0 (by norm_num) (by norm_num)
  linarith

/-- A point near the surface, and near the positions of a cell. -/
theorem aroundUpTo_iff {b : BinVOX ℚ} (hV : 0 < b.VoxelsPerMM) {r e : ℚ} {x y z : Int} {v : Vec ℚ} :
    AroundUpTo b r e x y z v ↔ |v.Z - sliceMiddle b z| ≤ e ∧ |gx b v - (x + 1 / 2)| ≤ r + b.VoxelsPerMM * e ∧
      |gy b v - (y + 1 / 2)| ≤ r + b.VoxelsPerMM * e := by
  have ed : r / b.VoxelsPerMM + e = (r + b.VoxelsPerMM * e) / b.VoxelsPerMM := by field_simp
  unfold AroundUpTo centre sliceMiddle gx gy
  dsimp only
  rw [ed, around_axis hV, around_axis hV, mul_one_div, add_comm _ b.TZ]

/-- An end of a cut, in float64: a point of the triangle nearby, and the position. -/
theorem cut_end {R : ℚ} {b : BinVOX ℚ} {b' : BinVOX F64} {m : Mesh F64} (hn : NearModel R b b') (hg : InReach R b (exactMesh m))
    {zi : Int} (h0 : 0 ≤ zi) (h1 : zi < b.NZ) {p q w : Vec F64} (hp : Within R (exactVec p)) (hq : Within R (exactVec q))
    (hw : intersectSegment p q (sliceHeight b' zi) = some w) :
    ∃ v, OnSegment (exactVec p) (exactVec q) v ∧ |v.Z - (sliceHeight b' zi).val| ≤ R / 2 ^ 48 ∧
      |gridPos b'.VoxelsPerMM w.X b'.TX - gx b v| ≤ b.VoxelsPerMM * (R / 2 ^ 43) ∧
      |gridPos b'.VoxelsPerMM w.Y b'.TY - gy b v| ≤ b.VoxelsPerMM * (R / 2 ^ 43) := by
  obtain ⟨hR, t, t0, t1, ex, ey, ez⟩ := cut_f64 hp hq (height_within hn hg h0 h1) hw
  have R0 : 0 < R := lt_of_lt_of_le (by norm_num) hR
  have hV : (2 : ℚ) ^ (-900 : Int) ≤ b.VoxelsPerMM := (zpow_le_zpow_right₀ (by norm_num) (by norm_num)).trans hg.lo
  obtain ⟨wx, wy, -⟩ := along_within hp hq t0 t1
  have le : R / 2 ^ 48 ≤ 1 * (R / 2 ^ 45) := by
    rw [one_mul]
    exact div_le_div_of_nonneg_left R0.le (by norm_num) (by norm_num)
  have e : b.VoxelsPerMM * (R / 2 ^ 43) = b.VoxelsPerMM * (4 * 1 * (R / 2 ^ 45)) := by ring
  refine ⟨_, onSegment_along.mpr ⟨t, t0, t1, rfl⟩, ez, ?_, ?_⟩
  · rw [e]
    exact grid_error hR hV le_rfl hn.pitch (val_mem _) wx (ex.trans le) (val_mem _) hg.corner.1 hn.tx
  · rw [e]
    exact grid_error hR hV le_rfl hn.pitch (val_mem _) wy (ey.trans le) (val_mem _) hg.corner.2.1 hn.ty

theorem mean_error {u u' w w' e t : ℚ} (h0 : 0 ≤ t) (h1 : t ≤ 1) (hu : |u' - u| ≤ e) (hw : |w' - w| ≤ e) :
    |(u' + t * (w' - u')) - (u + t * (w - u))| ≤ e := by
  rw [abs_le] at *
  have s : 0 ≤ 1 - t := by linarith
  have a1 := mul_nonneg s (by linarith : 0 ≤ u' - u + e)
  have a2 := mul_nonneg s (by linarith : 0 ≤ e - (u' - u))
  have a3 := mul_nonneg h0 (by linarith : 0 ≤ w' - w + e)
  have a4 := mul_nonneg h0 (by linarith : 0 ≤ e - (w' - w))
  constructor <;> linarith

/-- **C103.** Every cell a triangle touches in float64 is within one voxel, up to rounding, of a point of the triangle. -/
theorem touched_near_f64 {R : ℚ} {b : BinVOX ℚ} {b' : BinVOX F64} {m : Mesh F64} (hn : NearModel R b b') (hg : InReach R b (exactMesh m))
    {zi y x : Int} (h0 : 0 ≤ zi) (h1 : zi < b.NZ) {p : Nat} (h : Touches b' m zi y p x) :
    ∃ v, InTriangle ((exactMesh m).heap p) v ∧ AroundUpTo b 1 (R / 2 ^ 43) x y zi v := by
  obtain ⟨hp, -, -, q, hq, hm⟩ := h
  obtain ⟨V0, -⟩ := near_vpmm hg.lo hg.hi hn.pitch
  obtain ⟨p1, p2, p3⟩ := hg.points p hp
  have ends : ∃ v1 v2, (OnEdge ((exactMesh m).heap p) v1 ∧ |v1.Z - (sliceHeight b' zi).val| ≤ R / 2 ^ 48 ∧
      |gridPos b'.VoxelsPerMM q.v1.X b'.TX - gx b v1| ≤ b.VoxelsPerMM * (R / 2 ^ 43) ∧
      |gridPos b'.VoxelsPerMM q.v1.Y b'.TY - gy b v1| ≤ b.VoxelsPerMM * (R / 2 ^ 43)) ∧
      OnEdge ((exactMesh m).heap p) v2 ∧ |v2.Z - (sliceHeight b' zi).val| ≤ R / 2 ^ 48 ∧
      |gridPos b'.VoxelsPerMM q.v2.X b'.TX - gx b v2| ≤ b.VoxelsPerMM * (R / 2 ^ 43) ∧
      |gridPos b'.VoxelsPerMM q.v2.Y b'.TY - gy b v2| ≤ b.VoxelsPerMM * (R / 2 ^ 43) := by
    have c1 := fun w => cut_end hn hg h0 h1 (p := (m.heap p).V1.Position) (q := (m.heap p).V2.Position) (w := w) p1 p2
    have c2 := fun w => cut_end hn hg h0 h1 (p := (m.heap p).V2.Position) (q := (m.heap p).V3.Position) (w := w) p2 p3
    have c3 := fun w => cut_end hn hg h0 h1 (p := (m.heap p).V3.Position) (q := (m.heap p).V1.Position) (w := w) p3 p1
    unfold intersectTriZPlane at hq
    dsimp only at hq
    generalize intersectSegment (m.heap p).V1.Position (m.heap p).V2.Position (sliceHeight b' zi) = r1 at *
    generalize intersectSegment (m.heap p).V2.Position (m.heap p).V3.Position (sliceHeight b' zi) = r2 at *
    generalize intersectSegment (m.heap p).V3.Position (m.heap p).V1.Position (sliceHeight b' zi) = r3 at *
    rcases r1 with - | w1 <;> rcases r2 with - | w2 <;> rcases r3 with - | w3 <;> simp only [reduceCtorEq, Option.some.injEq] at hq
    all_goals subst hq
    · obtain ⟨u, a, r⟩ := c2 _ rfl
      obtain ⟨u', a', r'⟩ := c3 _ rfl
      exact ⟨u, u', ⟨.inr (.inl a), r⟩, .inr (.inr a'), r'⟩
    · obtain ⟨u, a, r⟩ := c1 _ rfl
      obtain ⟨u', a', r'⟩ := c3 _ rfl
      exact ⟨u, u', ⟨.inl a, r⟩, .inr (.inr a'), r'⟩
    all_goals
      obtain ⟨u, a, r⟩ := c1 _ rfl
      obtain ⟨u', a', r'⟩ := c2 _ rfl
      exact ⟨u, u', ⟨.inl a, r⟩, .inr (.inl a'), r'⟩
  obtain ⟨v1, v2, ⟨e1, z1, x1, y1⟩, e2, z2, x2, y2⟩ := ends
  have hz := sliceHeight_f64 hn hg h0 h1
  have R0 : 0 ≤ R := (abs_nonneg _).trans hg.corner.2.2
  unfold pairPoints at hm
  simp only [gridCoord_pos] at hm
  obtain ⟨t, t0, t1, n1, n2⟩ := rasterLine_near hm
  refine ⟨along v1 v2 t, inTriangle_convex (onEdge_in e1) (onEdge_in e2) t0 t1, (aroundUpTo_iff V0).mpr ⟨?_, ?_, ?_⟩⟩
  · have a := mean_error (u := (sliceHeight b' zi).val) (w := (sliceHeight b' zi).val) t0 t1 z1 z2
    show |v1.Z + t * (v2.Z - v1.Z) - _| ≤ _
    rw [sub_self, mul_zero, add_zero] at a
    have := abs_sub_le (v1.Z + t * (v2.Z - v1.Z)) (sliceHeight b' zi).val (sliceMiddle b zi)
    have r1 : R / 2 ^ 43 = 32 * (R / 2 ^ 48) := by ring
    have r2 : R / 2 ^ 46 = 4 * (R / 2 ^ 48) := by ring
    have : 0 ≤ R / 2 ^ 48 := by positivity
    linarith
  · rw [gx_along]
    have a := mean_error t0 t1 x1 x2
    have c := half_cell (gridPos b'.VoxelsPerMM q.v1.X b'.TX) (gridPos b'.VoxelsPerMM q.v2.X b'.TX) t t0 t1
    rw [abs_le] at *
    constructor <;> linarith
  · rw [gy_along]
    have a := mean_error t0 t1 y1 y2
    have c := half_cell (gridPos b'.VoxelsPerMM q.v1.Y b'.TY) (gridPos b'.VoxelsPerMM q.v2.Y b'.TY) t t0 t1
    rw [abs_le] at *
    constructor <;> linarith

/-! ## Clearly cut triangles -/

theorem reach_of_steep {R : ℚ} {p q : F64} (hp : |p.val| ≤ R) (hq : |q.val| ≤ R)
    (hf : ¬ (-rnd flatLimit < rnd (q.val - p.val) ∧ rnd (q.val - p.val) < rnd flatLimit)) :
    1 / 2 ^ 40 ≤ R ∧ rnd (q.val - p.val) ≠ 0 ∧ q.val - p.val ≠ 0 := by
  have f0 : (0 : ℚ) < flatLimit := by unfold flatLimit; norm_num
  have big : (2 : ℚ) ^ (-1022 : Int) ≤ flatLimit := by
    refine le_trans (zpow_le_zpow_right₀ (by norm_num) (by norm_num : (-1022 : Int) ≤ -40)) ?_
    unfold flatLimit; norm_num
  have hfl : flatLimit / 2 ≤ rnd flatLimit := by
    have := rnd_error (q := flatLimit) (by rw [abs_of_pos f0]; exact big)
    rw [abs_of_pos f0] at this
    obtain ⟨l, -⟩ := abs_le.mp this
    have : flatLimit / 2 ^ 53 ≤ flatLimit / 2 := div_le_div_of_nonneg_left f0.le (by norm_num) (by norm_num)
    linarith
  have hst : flatLimit / 2 ≤ |rnd (q.val - p.val)| := by
    by_contra hc
    push Not at hc
    exact hf (abs_lt.mp (lt_of_lt_of_le hc hfl))
  have hd : rnd (q.val - p.val) ≠ 0 := by
    intro h0
    rw [h0, abs_zero] at hst
    linarith
  refine ⟨?_, hd, fun h => hd (by rw [h]; exact rnd_zero)⟩
  have e := sub_error (val_mem q) (val_mem p)
  have dd : |q.val - p.val| ≤ 2 * R := by
    have := abs_sub q.val p.val
    linarith
  have := abs_sub_abs_le_abs_sub (rnd (q.val - p.val)) (q.val - p.val)
  have a3 : |q.val - p.val| / 2 ^ 53 ≤ |q.val - p.val| / 1 :=
    div_le_div_of_nonneg_left (abs_nonneg _) (by norm_num) (by norm_num)
  have a4 : (1 / 2 ^ 40 : ℚ) ≤ flatLimit / 2 / 4 := by unfold flatLimit; norm_num
  linarith

/-- A clearly cut edge is cut in float64 iff it is cut in exact arithmetic, and the points are close. -/
theorem edge_clear {R : ℚ} {p q : Vec F64} {h : F64} (hp : Within R (exactVec p)) (hq : Within R (exactVec q))
    (hh : |h.val| ≤ 4 * R) (hc : ClearEdge (R / 2 ^ 44) p.Z.val q.Z.val h.val) :
    (intersectSegment p q h = none ∧ intersectSegment (exactVec p) (exactVec q) h.val = none) ∨
    ∃ P Q, intersectSegment p q h = some P ∧ intersectSegment (exactVec p) (exactVec q) h.val = some Q ∧
      1 / 2 ^ 40 ≤ R ∧ Within R Q ∧ |P.X.val - Q.X| ≤ R / 2 ^ 45 ∧ |P.Y.val - Q.Y| ≤ R / 2 ^ 45 := by
  obtain ⟨m0, m1, up, dn⟩ := hc
  have hpz : |p.Z.val| ≤ R := hp.2.2
  have hqz : |q.Z.val| ≤ R := hq.2.2
  have R0' : 0 ≤ R := (abs_nonneg _).trans hpz
  have n0 : h.val ≠ p.Z.val := by
    intro e
    rw [e, sub_self, abs_zero] at m0
    have : 0 ≤ R / 2 ^ 44 := by positivity
    linarith
  have n1 : h.val ≠ q.Z.val := by
    intro e
    rw [e, sub_self, abs_zero] at m1
    have : 0 ≤ R / 2 ^ 44 := by positivity
    linarith
  have e44 : R / 2 ^ 44 = 2 * (R / 2 ^ 45) := by ring
  rw [e44] at m0 m1
  have f0 : (0 : ℚ) < flatLimit := by unfold flatLimit; norm_num
  have ed := sub_error (val_mem q.Z) (val_mem p.Z)
  have dR : |q.Z.val - p.Z.val| ≤ 2 * R := by
    have := abs_sub q.Z.val p.Z.val
    linarith
  have en : |rnd (h.val - p.Z.val) - (h.val - p.Z.val)| ≤ 3 / 4 * (R / 2 ^ 45) := by
    have := sub_error (val_mem h) (val_mem p.Z)
    have a : |h.val - p.Z.val| ≤ 5 * R := by
      have := abs_sub h.val p.Z.val
      linarith
    have c := div_le_div_of_nonneg_right a (by norm_num : (0 : ℚ) ≤ 2 ^ 53)
    have e : 5 * R / 2 ^ 53 = 5 * (R / 2 ^ 45) / 256 := by ring
    have : 0 ≤ R / 2 ^ 45 := by positivity
    linarith
  have m1' : 2 * (R / 2 ^ 45) < |h.val - p.Z.val - (q.Z.val - p.Z.val)| := by
    convert m1 using 2
    ring
  by_cases hx : (p.Z.val < h.val ∧ h.val < q.Z.val) ∨ (q.Z.val < h.val ∧ h.val < p.Z.val)
  · right
    have hlim : flatLimit * (1 + 1 / 2 ^ 50) ≤ |q.Z.val - p.Z.val| := by
      rcases hx with ⟨a, c⟩ | ⟨a, c⟩
      · exact (up a c).trans (le_abs_self _)
      · rw [abs_sub_comm]
        exact (dn a c).trans (le_abs_self _)
    have hlim' : flatLimit ≤ |q.Z.val - p.Z.val| := by
      have : flatLimit * 1 ≤ flatLimit * (1 + 1 / 2 ^ 50) := mul_le_mul_of_nonneg_left (by norm_num) f0.le
      linarith
    have hfl : ¬ (-flatLimit < q.Z.val - p.Z.val ∧ q.Z.val - p.Z.val < flatLimit) := by
      rw [← abs_lt]
      exact not_lt.mpr hlim'
    have hf : ¬ (-rnd flatLimit < rnd (q.Z.val - p.Z.val) ∧ rnd (q.Z.val - p.Z.val) < rnd flatLimit) :=
      fun hc => hfl ((flat_same (.inr hlim)).mp hc)
    obtain ⟨hR, hd, hz⟩ := reach_of_steep hpz hqz hf
    have R0 : 0 < R := lt_of_lt_of_le (by norm_num) hR
    have t01 : 0 ≤ (h.val - p.Z.val) / (q.Z.val - p.Z.val) ∧ (h.val - p.Z.val) / (q.Z.val - p.Z.val) ≤ 1 := by
      rcases hx with ⟨a, c⟩ | ⟨a, c⟩
      · exact ⟨div_nonneg (by linarith) (by linarith), by rw [div_le_one (by linarith)]; linarith⟩
      · exact ⟨div_nonneg_of_nonpos (by linarith) (by linarith), by rw [div_le_one_of_neg (by linarith)]; linarith⟩
    obtain ⟨e0, e1⟩ := t01
    obtain ⟨-, -, r3⟩ := ratio R0 hz dR ed en m0 m1'
    obtain ⟨t0, t1, -⟩ := r3 e0 e1
    have rc := ratio_close (val_mem p.Z) (val_mem q.Z) (val_mem h) hz hd t0 t1 e0 e1
    refine ⟨_, _, by rw [intersectSegment_f64, if_neg hf, if_neg (by push Not; exact ⟨t0, t1⟩)],
      by rw [intersectSegment_rat, if_neg (by exact hfl), if_neg (by push Not; exact ⟨e0, e1⟩)], hR, ?_, ?_, ?_⟩
    · exact ⟨edgeAt_le hp.1 hq.1 e0 e1, edgeAt_le hp.2.1 hq.2.1 e0 e1, edgeAt_le hp.2.2 hq.2.2 e0 e1⟩
    · refine (point_error hR (val_mem p.X) hp.1 (val_mem q.X) hq.1 t0 t1 rc).trans ?_
      have a : |q.X.val - p.X.val| ≤ 2 * R := by
        have := abs_sub q.X.val p.X.val
        have a1 : |p.X.val| ≤ R := hp.1
        have a2 : |q.X.val| ≤ R := hq.1
        linarith
      have c := mul_le_mul_of_nonneg_right a (by norm_num : (0 : ℚ) ≤ 6 / 2 ^ 53)
      have e1 : 2 * R * (6 / 2 ^ 53) = 12 * (R / 2 ^ 45) / 256 := by ring
      have e2 : R / 2 ^ 48 = R / 2 ^ 45 / 8 := by ring
      have : 0 < R / 2 ^ 45 := by positivity
      linarith
    · refine (point_error hR (val_mem p.Y) hp.2.1 (val_mem q.Y) hq.2.1 t0 t1 rc).trans ?_
      have a : |q.Y.val - p.Y.val| ≤ 2 * R := by
        have := abs_sub q.Y.val p.Y.val
        have a1 : |p.Y.val| ≤ R := hp.2.1
        have a2 : |q.Y.val| ≤ R := hq.2.1
        linarith
      have c := mul_le_mul_of_nonneg_right a (by norm_num : (0 : ℚ) ≤ 6 / 2 ^ 53)
      have e1 : 2 * R * (6 / 2 ^ 53) = 12 * (R / 2 ^ 45) / 256 := by ring
      have e2 : R / 2 ^ 48 = R / 2 ^ 45 / 8 := by ring
      have : 0 < R / 2 ^ 45 := by positivity
      linarith
  · left
    have side : (h.val < p.Z.val ∧ h.val < q.Z.val) ∨ (p.Z.val < h.val ∧ q.Z.val < h.val) := by
      rcases lt_or_gt_of_ne n0 with a | a <;> rcases lt_or_gt_of_ne n1 with c | c
      · exact .inl ⟨a, c⟩
      · exact absurd (.inr ⟨c, a⟩) hx
      · exact absurd (.inl ⟨a, c⟩) hx
      · exact .inr ⟨a, c⟩
    refine ⟨?_, segment_none (a := exactVec p) (c := exactVec q) side⟩
    rw [intersectSegment_f64]
    split
    · rfl
    rename_i hf
    obtain ⟨hR, hd, hz⟩ := reach_of_steep hpz hqz hf
    have R0 : 0 < R := lt_of_lt_of_le (by norm_num) hR
    obtain ⟨r1, r2, -⟩ := ratio R0 hz dR ed en m0 m1'
    rw [if_pos]
    rcases lt_or_gt_of_ne hz with hneg | hpos <;> rcases side with ⟨a, c⟩ | ⟨a, c⟩
    · right; apply r2; rw [one_lt_div_of_neg hneg]; linarith
    · left; apply r1; exact div_neg_of_pos_of_neg (by linarith) hneg
    · left; apply r1; exact div_neg_of_neg_of_pos (by linarith) hpos
    · right; apply r2; rw [one_lt_div hpos]; linarith

theorem clean_of_clear {d p q z : ℚ} (h : ClearEdge d p q z) : (p < z → z < q → flatLimit ≤ q - p) ∧ (q < z → z < p → flatLimit ≤ p - q) := by
  have f0 : (0 : ℚ) < flatLimit := by unfold flatLimit; norm_num
  have : flatLimit * 1 ≤ flatLimit * (1 + 1 / 2 ^ 50) := mul_le_mul_of_nonneg_left (by norm_num) f0.le
  exact ⟨fun a c => by have := h.2.2.1 a c; linarith, fun a c => by have := h.2.2.2 a c; linarith⟩

theorem ne_of_clear {d p z : ℚ} (hd : 0 ≤ d) (h : d < |z - p|) : p ≠ z := by
  rintro rfl
  rw [sub_self, abs_zero] at h
  linarith

/-- The cut of a clearly cut triangle, in float64 and in exact arithmetic at the computed height. -/
theorem clear_pair {R : ℚ} {b : BinVOX ℚ} {b' : BinVOX F64} {m : Mesh F64} (hn : NearModel R b b')
    (hg : InReach R b (exactMesh m)) {zi : Int} (h0 : 0 ≤ zi) (h1 : zi < b.NZ)
    (hc : ClearSlice (R / 2 ^ 44) (exactMesh m) (sliceHeight b' zi).val) {p : Nat} (hp : p ∈ m.Triangles) {v : Vec ℚ}
    (hv : InTriangle ((exactMesh m).heap p) v) (hz : v.Z = (sliceHeight b' zi).val) :
    ∃ q q', intersectTriZPlane p ((exactMesh m).heap p) (sliceHeight b' zi).val = some q ∧
      intersectTriZPlane p (m.heap p) (sliceHeight b' zi) = some q' ∧ OnSegment q.v1 q.v2 v ∧
      |gridPos b'.VoxelsPerMM q'.v1.X b'.TX - gx b q.v1| ≤ b.VoxelsPerMM * (R / 2 ^ 43) ∧
      |gridPos b'.VoxelsPerMM q'.v2.X b'.TX - gx b q.v2| ≤ b.VoxelsPerMM * (R / 2 ^ 43) ∧
      |gridPos b'.VoxelsPerMM q'.v1.Y b'.TY - gy b q.v1| ≤ b.VoxelsPerMM * (R / 2 ^ 43) ∧
      |gridPos b'.VoxelsPerMM q'.v2.Y b'.TY - gy b q.v2| ≤ b.VoxelsPerMM * (R / 2 ^ 43) := by
  have hV : (2 : ℚ) ^ (-900 : Int) ≤ b.VoxelsPerMM := (zpow_le_zpow_right₀ (by norm_num) (by norm_num)).trans hg.lo
  have R0 : 0 ≤ R := (abs_nonneg _).trans hg.corner.2.2
  have hh := height_within hn hg h0 h1
  obtain ⟨p1, p2, p3⟩ := hg.points p hp
  obtain ⟨c1, c2, c3⟩ := hc p hp
  have clean : CleanCut ((exactMesh m).heap p) (sliceHeight b' zi).val := by
    have d0 : 0 ≤ R / 2 ^ 44 := by positivity
    exact ⟨ne_of_clear d0 c1.1, ne_of_clear d0 c2.1, ne_of_clear d0 c3.1, (clean_of_clear c1).1, (clean_of_clear c1).2,
      (clean_of_clear c2).1, (clean_of_clear c2).2, (clean_of_clear c3).1, (clean_of_clear c3).2⟩
  obtain ⟨q, hq, hs⟩ := clean_cut clean p hv hz
  have hq0 := hq
  have e1 := edge_clear (p := (m.heap p).V1.Position) (q := (m.heap p).V2.Position) p1 p2 hh c1
  have e2 := edge_clear (p := (m.heap p).V2.Position) (q := (m.heap p).V3.Position) p2 p3 hh c2
  have e3 := edge_clear (p := (m.heap p).V3.Position) (q := (m.heap p).V1.Position) p3 p1 hh c3
  have pair : ∃ q', intersectTriZPlane p (m.heap p) (sliceHeight b' zi) = some q' ∧ 1 / 2 ^ 40 ≤ R ∧
      (Within R q.v1 ∧ |q'.v1.X.val - q.v1.X| ≤ R / 2 ^ 45 ∧ |q'.v1.Y.val - q.v1.Y| ≤ R / 2 ^ 45) ∧
      Within R q.v2 ∧ |q'.v2.X.val - q.v2.X| ≤ R / 2 ^ 45 ∧ |q'.v2.Y.val - q.v2.Y| ≤ R / 2 ^ 45 := by
    unfold intersectTriZPlane at hq ⊢
    dsimp only [exactMesh] at hq ⊢
    generalize intersectSegment (m.heap p).V1.Position (m.heap p).V2.Position (sliceHeight b' zi) = r1 at *
    generalize intersectSegment (m.heap p).V2.Position (m.heap p).V3.Position (sliceHeight b' zi) = r2 at *
    generalize intersectSegment (m.heap p).V3.Position (m.heap p).V1.Position (sliceHeight b' zi) = r3 at *
    generalize intersectSegment (exactVec (m.heap p).V1.Position) (exactVec (m.heap p).V2.Position) (sliceHeight b' zi).val = s1 at *
    generalize intersectSegment (exactVec (m.heap p).V2.Position) (exactVec (m.heap p).V3.Position) (sliceHeight b' zi).val = s2 at *
    generalize intersectSegment (exactVec (m.heap p).V3.Position) (exactVec (m.heap p).V1.Position) (sliceHeight b' zi).val = s3 at *
    rcases e1 with ⟨rfl, rfl⟩ | ⟨P1, Q1, rfl, rfl, hR, w1⟩ <;> rcases e2 with ⟨rfl, rfl⟩ | ⟨P2, Q2, rfl, rfl, hR2, w2⟩ <;>
      rcases e3 with ⟨rfl, rfl⟩ | ⟨P3, Q3, rfl, rfl, hR3, w3⟩ <;> simp only [reduceCtorEq, Option.some.injEq] at hq
    all_goals subst hq
    · exact ⟨_, rfl, hR2, w2, w3⟩
    · exact ⟨_, rfl, hR, w1, w3⟩
    · exact ⟨_, rfl, hR, w1, w2⟩
    · exact ⟨_, rfl, hR, w1, w2⟩
  obtain ⟨q', hq', hR, ⟨w1, x1, y1⟩, w2, x2, y2⟩ := pair
  have e : b.VoxelsPerMM * (R / 2 ^ 43) = b.VoxelsPerMM * (4 * 1 * (R / 2 ^ 45)) := by ring
  have one : R / 2 ^ 45 = 1 * (R / 2 ^ 45) := (one_mul _).symm
  rw [one] at x1 x2 y1 y2
  have gx1 := grid_error hR hV le_rfl hn.pitch (val_mem q'.v1.X) w1.1 x1 (val_mem b'.TX) hg.corner.1 hn.tx
  have gx2 := grid_error hR hV le_rfl hn.pitch (val_mem q'.v2.X) w2.1 x2 (val_mem b'.TX) hg.corner.1 hn.tx
  have gy1 := grid_error hR hV le_rfl hn.pitch (val_mem q'.v1.Y) w1.2.1 y1 (val_mem b'.TY) hg.corner.2.1 hn.ty
  have gy2 := grid_error hR hV le_rfl hn.pitch (val_mem q'.v2.Y) w2.2.1 y2 (val_mem b'.TY) hg.corner.2.1 hn.ty
  rw [← e] at gx1 gx2 gy1 gy2
  exact ⟨q, q', hq0, hq', hs, gx1, gx2, gy1, gy2⟩

/-- **C103.** Every point of a clearly cut triangle at the computed height of the slice is within one and a half voxels, up to
    rounding, of a cell the triangle touches, or of a cell in a row that was not asked for. -/
theorem touched_covers_f64 {R : ℚ} {b : BinVOX ℚ} {b' : BinVOX F64} {m : Mesh F64} (hn : NearModel R b b')
    (hg : InReach R b (exactMesh m)) {zi : Int} (h0 : 0 ≤ zi) (h1 : zi < b.NZ)
    (hc : ClearSlice (R / 2 ^ 44) (exactMesh m) (sliceHeight b' zi).val) {p : Nat} (hp : p ∈ m.Triangles) {v : Vec ℚ}
    (hv : InTriangle ((exactMesh m).heap p) v) (hz : v.Z = (sliceHeight b' zi).val) :
    ∃ x y, AroundUpTo b (3 / 2) (R / 2 ^ 43) x y zi v ∧ (0 ≤ y → y < b.NY → Touches b' m zi y p x) := by
  obtain ⟨V0, -⟩ := near_vpmm hg.lo hg.hi hn.pitch
  have R0 : 0 ≤ R := (abs_nonneg _).trans hg.corner.2.2
  obtain ⟨q, q', -, hq', hs, gx1, gx2, gy1, gy2⟩ := clear_pair hn hg h0 h1 hc hp hv hz
  rw [onSegment_along] at hs
  obtain ⟨t, t0, t1, rfl⟩ := hs
  obtain ⟨x, y, hm, n1, n2⟩ := rasterLine_covers ⌊gridPos b'.VoxelsPerMM q'.v1.X b'.TX⌋ ⌊gridPos b'.VoxelsPerMM q'.v1.Y b'.TY⌋
    ⌊gridPos b'.VoxelsPerMM q'.v2.X b'.TX⌋ ⌊gridPos b'.VoxelsPerMM q'.v2.Y b'.TY⌋ t0 t1
  have hsl := sliceHeight_f64 hn hg h0 h1
  refine ⟨x, y, (aroundUpTo_iff V0).mpr ⟨?_, ?_, ?_⟩, fun y0 y1 => ⟨hp, y0, by rw [hn.ny]; exact y1, q', hq', ?_⟩⟩
  · rw [hz]
    exact hsl.trans (div_le_div_of_nonneg_left R0 (by norm_num) (by norm_num))
  · rw [gx_along]
    have a := mean_error t0 t1 gx1 gx2
    have c := half_cell (gridPos b'.VoxelsPerMM q'.v1.X b'.TX) (gridPos b'.VoxelsPerMM q'.v2.X b'.TX) t t0 t1
    unfold gridPos gx at *
    rw [abs_le] at *
    constructor <;> linarith
  · rw [gy_along]
    have a := mean_error t0 t1 gy1 gy2
    have c := half_cell (gridPos b'.VoxelsPerMM q'.v1.Y b'.TY) (gridPos b'.VoxelsPerMM q'.v2.Y b'.TY) t t0 t1
    unfold gridPos gy at *
    rw [abs_le] at *
    constructor <;> linarith
  · unfold pairPoints
    simp only [gridCoord_pos]
    exact hm

/-! ## Voxelize -/

/-- **C103.** Whatever the mesh: each voxel stored in float64 is within one voxel, up to rounding, of a point of the surface,
    or lies in its row between two cells that are. -/
theorem voxelize_near_f64 {R : ℚ} {b : BinVOX ℚ} {b' out : BinVOX F64} {m : Mesh F64} (hn : NearModel R b b')
    (hg : InReach R b (exactMesh m)) (h : VoxelizeRun b' m (.ok out)) {x y z : Int} (hk : out.white.has ⟨x, y, z⟩ = true) :
    (∃ v, OnSurface (exactMesh m) v ∧ AroundUpTo b 1 (R / 2 ^ 43) x y z v) ∨
      (∃ x0 x1, x0 < x ∧ x < x1 ∧ (∃ v, OnSurface (exactMesh m) v ∧ AroundUpTo b 1 (R / 2 ^ 43) x0 y z v) ∧
        ∃ v, OnSurface (exactMesh m) v ∧ AroundUpTo b 1 (R / 2 ^ 43) x1 y z v) := by
  classical
  obtain ⟨h0, h1, -, hf⟩ := (run_filled h _).mp hk
  have near : ∀ {xc : Int} {p : Nat}, Touches b' m z y p xc → ∃ v, OnSurface (exactMesh m) v ∧ AroundUpTo b 1 (R / 2 ^ 43) xc y z v := by
    intro xc p ht
    obtain ⟨v, hv, ha⟩ := touched_near_f64 hn hg h0 (by rw [← hn.nz]; exact h1) ht
    exact ⟨v, ⟨p, ht.1, hv⟩, ha⟩
  rcases hf with ⟨p, ht⟩ | ⟨-, ⟨x1, p, hx1, ht⟩, x0, hx0, he, -⟩
  · exact .inl (near ht)
  · rcases eq_or_lt_of_le hx1 with rfl | hlt
    · exact .inl (near ht)
    · refine .inr ⟨x0, x1, hx0, hlt, ?_, near ht⟩
      unfold Enters crossings at he
      obtain ⟨q, hq⟩ := List.exists_mem_of_length_pos (lt_of_le_of_lt (Nat.zero_le _) he)
      rw [List.mem_filter, decide_eq_true_eq] at hq
      exact near hq.2.1.1

/-- **C103.** Whatever the mesh: a slice has, in float64, a height next to its middle, and if the mesh is clearly cut at this
    height each of its points there is within one and a half voxels, up to rounding, of a stored voxel, or of a voxel in a
    row or column outside of the region. -/
theorem voxelize_covers_f64 {R : ℚ} {b : BinVOX ℚ} {b' out : BinVOX F64} {m : Mesh F64} (hn : NearModel R b b')
    (hg : InReach R b (exactMesh m)) (h : VoxelizeRun b' m (.ok out)) {z : Int} (h0 : 0 ≤ z) (h1 : z < b.NZ) :
    ∃ height : ℚ, |height - sliceMiddle b z| ≤ R / 2 ^ 46 ∧ (ClearSlice (R / 2 ^ 44) (exactMesh m) height →
      ∀ v, OnSurface (exactMesh m) v → v.Z = height →
        ∃ x y, AroundUpTo b (3 / 2) (R / 2 ^ 43) x y z v ∧ (0 ≤ y → y < b.NY → x < b.NX → out.white.has ⟨x, y, z⟩ = true)) := by
  refine ⟨_, sliceHeight_f64 hn hg h0 h1, ?_⟩
  rintro hc v ⟨p, hp, hv⟩ hz
  obtain ⟨x, y, ha, ht⟩ := touched_covers_f64 hn hg h0 h1 hc hp hv hz
  exact ⟨x, y, ha, fun y0 y1 x1 => (run_filled h _).mpr ⟨h0, by rw [hn.nz]; exact h1, by rw [hn.nx]; exact x1, .inl ⟨p, ht y0 y1⟩⟩⟩

/-- **C103.** Whatever the mesh: of two neighbours in a row without a point of the surface within one voxel, up to rounding,
    of their middles, float64 stores both or neither. -/
theorem stored_along_row_f64 {R : ℚ} {b : BinVOX ℚ} {b' out : BinVOX F64} {m : Mesh F64} (hn : NearModel R b b')
    (hg : InReach R b (exactMesh m)) (h : VoxelizeRun b' m (.ok out)) {x y z : Int}
    (h0 : 0 ≤ x) (h1 : x + 1 < b.NX) (n0 : ∀ v, AroundUpTo b 1 (R / 2 ^ 43) x y z v → ¬ OnSurface (exactMesh m) v)
    (n1 : ∀ v, AroundUpTo b 1 (R / 2 ^ 43) (x + 1) y z v → ¬ OnSurface (exactMesh m) v) :
    out.white.has ⟨x, y, z⟩ = true ↔ out.white.has ⟨x + 1, y, z⟩ = true := by
  rw [run_filled h, run_filled h]
  dsimp only
  refine and_congr_right fun z0 => and_congr_right fun z1 => ?_
  have no : ∀ xc, (∀ v, AroundUpTo b 1 (R / 2 ^ 43) xc y z v → ¬ OnSurface (exactMesh m) v) → ¬ ∃ p, Touches b' m z y p xc := by
    rintro xc hno ⟨p, ht⟩
    obtain ⟨v, hv, ha⟩ := touched_near_f64 hn hg z0 (by rw [← hn.nz]; exact z1) ht
    exact hno v ha ⟨p, ht.1, hv⟩
  exact filled_step h0 (by rw [hn.nx]; exact h1) (no _ n0) (no _ n1)

/-- **C103.** Whatever the mesh: each voxel stored in float64 has, within one voxel up to rounding, a point of the solid (the
    hull of the corners). -/
theorem voxelize_near_solid_f64 {R : ℚ} {b : BinVOX ℚ} {b' out : BinVOX F64} {m : Mesh F64} (hn : NearModel R b b')
    (hg : InReach R b (exactMesh m)) (h : VoxelizeRun b' m (.ok out)) {x y z : Int} (hk : out.white.has ⟨x, y, z⟩ = true) :
    ∃ v, InSolid (exactMesh m) v ∧ AroundUpTo b 1 (R / 2 ^ 43) x y z v := by
  obtain ⟨V0, -⟩ := near_vpmm hg.lo hg.hi hn.pitch
  rcases voxelize_near_f64 hn hg h hk with ⟨v, hv, ha⟩ | ⟨x0, x1, hx0, hx1, ⟨u, hu, au⟩, v, hv, av⟩
  · exact ⟨v, surface_in_solid hv, ha⟩
  · rw [aroundUpTo_iff V0] at au av
    obtain ⟨uz, ux, uy⟩ := au
    obtain ⟨vz, vx, vy⟩ := av
    have d1 : (0 : ℚ) < (x1 : ℚ) - x0 := by
      have : (x0 : ℚ) < x1 := by exact_mod_cast lt_trans hx0 hx1
      linarith
    have d2 : (0 : ℚ) ≤ (x : ℚ) - x0 := by
      have : (x0 : ℚ) < x := by exact_mod_cast hx0
      linarith
    have d3 : (x : ℚ) < x1 := by exact_mod_cast hx1
    have t0 : 0 ≤ ((x : ℚ) - x0) / (x1 - x0) := div_nonneg d2 d1.le
    have t1 : ((x : ℚ) - x0) / (x1 - x0) ≤ 1 := by rw [div_le_one d1]; linarith
    have te : ((x : ℚ) - x0) / (x1 - x0) * (x1 - x0) = x - x0 := div_mul_cancel₀ _ d1.ne'
    generalize ((x : ℚ) - x0) / (x1 - x0) = t at *
    refine ⟨along u v t, solid_convex (surface_in_solid hu) (surface_in_solid hv) t0 t1, (aroundUpTo_iff V0).mpr ⟨?_, ?_, ?_⟩⟩
    · have := mean_error (u := sliceMiddle b z) (w := sliceMiddle b z) t0 t1 uz vz
      rw [sub_self, mul_zero, add_zero] at this
      exact this
    · rw [gx_along]
      have := mean_error t0 t1 ux vx
      have e : ((x0 : ℚ) + 1 / 2) + t * ((x1 + 1 / 2) - (x0 + 1 / 2)) = x + 1 / 2 := by linarith
      rwa [e] at this
    · rw [gy_along]
      have := mean_error t0 t1 uy vy
      rwa [sub_self, mul_zero, add_zero] at this

/-! ## A box on the grid: not in general position, but the theorems apply -/

/-- The region of the undiced job of `dice_f64_loses`. -/
abbrev gridOne : BinVOX F64 := tileModel (lay 1) cube15 ⟨0, 0, 0⟩

theorem gridOne_near : NearModel 64 (exactModel gridOne) gridOne :=
  near_exact (by decide +kernel) (by decide +kernel) (by decide +kernel) (by
    refine le_trans (zpow_le_zpow_right₀ (by norm_num) (by norm_num : (-899 : Int) ≤ 0)) ?_
    rw [zpow_zero]; decide +kernel) (by norm_num)

theorem gridOne_reach : InReach 64 (exactModel gridOne) (exactMesh (boxMesh (15 / 2) 15 15)) where
  lo := by
    refine le_trans (zpow_le_zpow_right₀ (by norm_num) (by norm_num : (-899 : Int) ≤ 0)) ?_
    rw [zpow_zero]; decide +kernel
  hi := by
    refine le_trans ?_ (zpow_le_zpow_right₀ (by norm_num) (by norm_num : (3 : Int) ≤ 899))
    decide +kernel
  nz := by decide +kernel
  corner := by decide +kernel
  top := by decide +kernel
  points := by decide +kernel

theorem box_faces : ∀ p ∈ (exactMesh (boxMesh (15 / 2) 15 15)).Triangles,
    let t := (exactMesh (boxMesh (15 / 2) 15 15)).heap p
    (∃ c ∈ [(0 : ℚ), 15 / 2], t.V1.Position.X = c ∧ t.V2.Position.X = c ∧ t.V3.Position.X = c) ∨
    (∃ c ∈ [(0 : ℚ), 15], t.V1.Position.Y = c ∧ t.V2.Position.Y = c ∧ t.V3.Position.Y = c) ∨
    (∃ c ∈ [(0 : ℚ), 15], t.V1.Position.Z = c ∧ t.V2.Position.Z = c ∧ t.V3.Position.Z = c) := by decide +kernel

theorem box_surface {v : Vec ℚ} (h : OnSurface (exactMesh (boxMesh (15 / 2) 15 15)) v) :
    v.X = 0 ∨ v.X = 15 / 2 ∨ v.Y = 0 ∨ v.Y = 15 ∨ v.Z = 0 ∨ v.Z = 15 := by
  obtain ⟨p, hp, i, j, k, -, -, -, hs, hx, hy, hz⟩ := h
  have fl : ∀ {a : ℚ} {c : ℚ}, a = i * c + j * c + k * c → a = c := by
    intro a c h
    rw [h, ← add_mul, ← add_mul, hs, one_mul]
  rcases box_faces p hp with ⟨c, hc, e1, e2, e3⟩ | ⟨c, hc, e1, e2, e3⟩ | ⟨c, hc, e1, e2, e3⟩ <;>
    simp only [List.mem_cons, List.not_mem_nil, or_false] at hc
  · rw [e1, e2, e3] at hx
    have := fl hx
    rcases hc with rfl | rfl <;> simp [this]
  · rw [e1, e2, e3] at hy
    have := fl hy
    rcases hc with rfl | rfl <;> simp [this]
  · rw [e1, e2, e3] at hz
    have := fl hz
    rcases hc with rfl | rfl <;> simp [this]

theorem box_clear {h : ℚ} (h1 : 1 ≤ h) (h2 : h ≤ 14) : ClearSlice (64 / 2 ^ 44) (exactMesh (boxMesh (15 / 2) 15 15)) h := by
  have ends : ∀ p ∈ (exactMesh (boxMesh (15 / 2) 15 15)).Triangles,
      let t := (exactMesh (boxMesh (15 / 2) 15 15)).heap p
      (t.V1.Position.Z = 0 ∨ t.V1.Position.Z = 15) ∧ (t.V2.Position.Z = 0 ∨ t.V2.Position.Z = 15) ∧
      (t.V3.Position.Z = 0 ∨ t.V3.Position.Z = 15) := by decide +kernel
  have edge : ∀ {a c : ℚ}, a = 0 ∨ a = 15 → c = 0 ∨ c = 15 → ClearEdge (64 / 2 ^ 44) a c h := by
    intro a c ha hc
    have f : flatLimit * (1 + 1 / 2 ^ 50) ≤ 1 := by unfold flatLimit; norm_num
    have g : (64 / 2 ^ 44 : ℚ) < 1 / 2 := by norm_num
    have d0 : (64 / 2 ^ 44 : ℚ) < |h - 0| := by rw [abs_of_pos (by linarith)]; linarith
    have d1 : (64 / 2 ^ 44 : ℚ) < |h - 15| := by rw [abs_of_neg (by linarith)]; linarith
    rcases ha with rfl | rfl <;> rcases hc with rfl | rfl
    · exact ⟨d0, d0, fun _ _ => by linarith, fun _ _ => by linarith⟩
    · exact ⟨d0, d1, fun _ _ => by linarith, fun _ _ => by linarith⟩
    · exact ⟨d1, d0, fun _ _ => by linarith, fun _ _ => by linarith⟩
    · exact ⟨d1, d1, fun _ _ => by linarith, fun _ _ => by linarith⟩
  intro p hp
  obtain ⟨a, c, d⟩ := ends p hp
  exact ⟨edge a c, edge c d, edge d a⟩

/-- The theorems on the box: the stored voxel `(11, 3, 5)` on the border; the face `x = 15/2` in slice 5; the inner voxels
    `(4, 10, 5)` and `(5, 10, 5)`. -/
example : ∃ out, VoxelizeRun gridOne (boxMesh (15 / 2) 15 15) (.ok out) ∧ out.white.has ⟨11, 3, 5⟩ = true ∧
    (∃ v, InSolid (exactMesh (boxMesh (15 / 2) 15 15)) v ∧ AroundUpTo (exactModel gridOne) 1 (64 / 2 ^ 43) 11 3 5 v) ∧
    (∃ height : ℚ, |height - 15 / 4| ≤ 1 / 1000 ∧ ∀ v, OnSurface (exactMesh (boxMesh (15 / 2) 15 15)) v → v.Z = height →
      ∃ x y, AroundUpTo (exactModel gridOne) (3 / 2) (64 / 2 ^ 43) x y 5 v ∧ (0 ≤ y → y < 22 → x < 22 → out.white.has ⟨x, y, 5⟩ = true)) ∧
    (out.white.has ⟨4, 10, 5⟩ = true ↔ out.white.has ⟨4 + 1, 10, 5⟩ = true) := by
  obtain ⟨-, -, -, -, ⟨out, ho⟩, -, hs, -⟩ := dice_f64_loses
  have h11 := hs out ho 3 (by norm_num) (by norm_num)
  refine ⟨out, ho, h11, voxelize_near_solid_f64 gridOne_near gridOne_reach ho h11, ?_, ?_⟩
  · obtain ⟨height, e, hc⟩ := voxelize_covers_f64 gridOne_near gridOne_reach ho (z := 5) (by norm_num) (by decide +kernel)
    have em : |sliceMiddle (exactModel gridOne) 5 - 15 / 4| ≤ 1 / 2000 := by decide +kernel
    have g : (64 / 2 ^ 46 : ℚ) ≤ 1 / 2000 := by norm_num
    have e' := abs_le.mp e
    have em' := abs_le.mp em
    refine ⟨height, abs_le.mpr ⟨by linarith, by linarith⟩, fun v hv hz => ?_⟩
    have ny : (exactModel gridOne).NY = 22 := by decide +kernel
    have nx : (exactModel gridOne).NX = 22 := by decide +kernel
    have := hc (box_clear (by linarith) (by linarith)) v hv hz
    rw [ny, nx] at this
    exact this
  · have V : 7 / 5 ≤ (exactModel gridOne).VoxelsPerMM ∧ (exactModel gridOne).VoxelsPerMM ≤ 3 / 2 := by decide +kernel
    have TX : (exactModel gridOne).TX = 0 := by decide +kernel
    have TY : (exactModel gridOne).TY = 0 := by decide +kernel
    have em : 3 ≤ sliceMiddle (exactModel gridOne) 5 ∧ sliceMiddle (exactModel gridOne) 5 ≤ 4 := by decide +kernel
    have g : (64 / 2 ^ 43 : ℚ) ≤ 1 / 100 := by norm_num
    have no : ∀ x : Int, 4 ≤ x → x ≤ 5 → ∀ v, AroundUpTo (exactModel gridOne) 1 (64 / 2 ^ 43) x 10 5 v →
        ¬ OnSurface (exactMesh (boxMesh (15 / 2) 15 15)) v := by
      intro x x4 x5 v hv hsf
      rw [aroundUpTo_iff (by linarith)] at hv
      unfold gx gy at hv
      rw [TX, TY] at hv
      generalize (exactModel gridOne).VoxelsPerMM = W at *
      generalize sliceMiddle (exactModel gridOne) 5 = mid at *
      obtain ⟨hz, hx, hy⟩ := hv
      rw [abs_le] at hz hx hy
      have c4 : (4 : ℚ) ≤ x := by exact_mod_cast x4
      have c5 : (x : ℚ) ≤ 5 := by exact_mod_cast x5
      push_cast at hy
      rcases box_surface hsf with e | e | e | e | e | e
      · rw [e] at hx; linarith
      · rw [e] at hx; linarith
      · rw [e] at hy; linarith
      · rw [e] at hy; linarith
      · rw [e] at hz; linarith
      · rw [e] at hz; linarith
    exact stored_along_row_f64 gridOne_near gridOne_reach ho (by norm_num) (by decide +kernel) (no 4 (by norm_num) (by norm_num))
      (no 5 (by norm_num) (by norm_num))

end StlDice
