import Verif.Lemmas.Raster
import Verif.Spec.Accuracy
import Verif.Props.PlaneCut
import Mathlib.Tactic.LinearCombination
import Verif.Props.Dice
import Verif.Props.VoxelizeFloat

/-! # The voxels of the surface lie on the surface (C97) -/

namespace StlDice
open Spec GoFloat BinVOX

/-! ## Grid coordinates -/

/-- A position in voxels from the corner of the region. -/
def gx (b : BinVOX ℚ) (v : Vec ℚ) : ℚ := b.VoxelsPerMM * (v.X - b.TX)
def gy (b : BinVOX ℚ) (v : Vec ℚ) : ℚ := b.VoxelsPerMM * (v.Y - b.TY)

theorem around_axis {V T c r : ℚ} (hV : 0 < V) (x : Int) :
    |c - (((x : ℚ) + 1 / 2) * (1 / V) + T)| ≤ r / V ↔ |V * (c - T) - (x + 1 / 2)| ≤ r := by
  have e : c - (((x : ℚ) + 1 / 2) * (1 / V) + T) = (V * (c - T) - (x + 1 / 2)) / V := by field_simp; ring
  rw [e, abs_div, abs_of_pos hV, div_le_div_iff_of_pos_right hV]

theorem around_iff {b : BinVOX ℚ} (hV : 0 < b.VoxelsPerMM) {r : ℚ} {x y z : Int} {v : Vec ℚ} :
    Around b r x y z v ↔ v.Z = sliceMiddle b z ∧ |gx b v - (x + 1 / 2)| ≤ r ∧ |gy b v - (y + 1 / 2)| ≤ r := by
  unfold Around centre sliceMiddle gx gy
  dsimp only
  rw [around_axis hV, around_axis hV, mul_one_div, add_comm _ b.TZ]

/-- The point at parameter `t` of the segment. -/
def along (a c : Vec ℚ) (t : ℚ) : Vec ℚ := ⟨a.X + t * (c.X - a.X), a.Y + t * (c.Y - a.Y), a.Z + t * (c.Z - a.Z)⟩

theorem gx_along (b : BinVOX ℚ) (a c : Vec ℚ) (t : ℚ) : gx b (along a c t) = gx b a + t * (gx b c - gx b a) := by
  unfold gx along; ring
theorem gy_along (b : BinVOX ℚ) (a c : Vec ℚ) (t : ℚ) : gy b (along a c t) = gy b a + t * (gy b c - gy b a) := by
  unfold gy along; ring

theorem onSegment_along {a c v : Vec ℚ} : OnSegment a c v ↔ ∃ t, 0 ≤ t ∧ t ≤ 1 ∧ v = along a c t := by
  obtain ⟨X, Y, Z⟩ := v
  unfold OnSegment along
  simp only [Vec.mk.injEq]

/-! ## Points of a triangle -/

theorem inTriangle_convex {t : Triangle ℚ} {a c : Vec ℚ} (ha : InTriangle t a) (hc : InTriangle t c) {s : ℚ} (h0 : 0 ≤ s) (h1 : s ≤ 1) :
    InTriangle t (along a c s) := by
  obtain ⟨i, j, k, hi, hj, hk, hs, x, y, z⟩ := ha
  obtain ⟨i', j', k', hi', hj', hk', hs', x', y', z'⟩ := hc
  have h1' : 0 ≤ 1 - s := by linarith
  refine ⟨(1 - s) * i + s * i', (1 - s) * j + s * j', (1 - s) * k + s * k', by positivity, by positivity, by positivity, ?_, ?_, ?_, ?_⟩
  · linear_combination (1 - s) * hs + s * hs'
  · show a.X + s * (c.X - a.X) = _
    rw [x, x']; ring
  · show a.Y + s * (c.Y - a.Y) = _
    rw [y, y']; ring
  · show a.Z + s * (c.Z - a.Z) = _
    rw [z, z']; ring

theorem onEdge_in {t : Triangle ℚ} {v : Vec ℚ} (h : OnEdge t v) : InTriangle t v := by
  rcases h with h | h | h <;> obtain ⟨s, h0, h1, x, y, z⟩ := h
  · exact ⟨1 - s, s, 0, by linarith, h0, le_rfl, by ring, by rw [x]; ring, by rw [y]; ring, by rw [z]; ring⟩
  · exact ⟨0, 1 - s, s, le_rfl, by linarith, h0, by ring, by rw [x]; ring, by rw [y]; ring, by rw [z]; ring⟩
  · exact ⟨s, 0, 1 - s, h0, le_rfl, by linarith, by ring, by rw [x]; ring, by rw [y]; ring, by rw [z]; ring⟩

/-- The points of a triangle at a height between one corner `A` and the two others lie on the segment between the
    points of the edges from `A` at this height. -/
theorem cut_segment {A B C P Q v : Vec ℚ} {z i j k : ℚ} (hA : A.Z ≠ z) (hi : 0 ≤ j) (hk : 0 ≤ k)
    (hs : i + j + k = 1) (hx : v.X = i * A.X + j * B.X + k * C.X) (hy : v.Y = i * A.Y + j * B.Y + k * C.Y)
    (hz : v.Z = i * A.Z + j * B.Z + k * C.Z) (hv : v.Z = z) (hP : OnSegment A B P) (hQ : OnSegment A C Q) (zP : P.Z = z)
    (zQ : Q.Z = z) : OnSegment P Q v := by
  obtain ⟨s, s0, s1, px, py, pz⟩ := hP
  obtain ⟨r, r0, r1, qx, qy, qz⟩ := hQ
  have hs0 : s ≠ 0 := by
    rintro rfl
    apply hA
    rw [← zP, pz]; ring
  have hr0 : r ≠ 0 := by
    rintro rfl
    apply hA
    rw [← zQ, qz]; ring
  have sp : 0 < s := lt_of_le_of_ne s0 (Ne.symm hs0)
  have rp : 0 < r := lt_of_le_of_ne r0 (Ne.symm hr0)
  have hsum : j / s + k / r = 1 := by
    have e1 : B.Z - A.Z = (z - A.Z) / s := by rw [eq_div_iff hs0]; linarith
    have e2 : C.Z - A.Z = (z - A.Z) / r := by rw [eq_div_iff hr0]; linarith
    have e3 : j * (B.Z - A.Z) + k * (C.Z - A.Z) = z - A.Z := by
      have : i = 1 - j - k := by linarith
      rw [this] at hz
      linarith
    rw [e1, e2] at e3
    have hne : z - A.Z ≠ 0 := fun h => hA (by linarith)
    have e4 : (j / s + k / r) * (z - A.Z) = 1 * (z - A.Z) := by linear_combination e3
    exact mul_right_cancel₀ hne e4
  have hj' : j = (1 - k / r) * s := by
    have : j / s = 1 - k / r := by linarith
    rw [← this, div_mul_cancel₀ _ hs0]
  have hk' : k = k / r * r := by rw [div_mul_cancel₀ _ hr0]
  have hi' : i = 1 - j - k := by linarith
  generalize k / r = l at *
  have j0 : 0 ≤ j / s := div_nonneg hi sp.le
  refine ⟨l, ?_, by linarith, ?_, ?_, ?_⟩
  · by_contra h
    rw [not_le] at h
    have : l * r < 0 := mul_neg_of_neg_of_pos h rp
    linarith
  · rw [hx, px, qx, hi', hj', hk']; ring
  · rw [hy, py, qy, hi', hj', hk']; ring
  · rw [hv, zP, zQ]; ring

theorem onSegment_symm {a c v : Vec ℚ} (h : OnSegment a c v) : OnSegment c a v := by
  obtain ⟨t, h0, h1, x, y, z⟩ := h
  exact ⟨1 - t, by linarith, by linarith, by rw [x]; ring, by rw [y]; ring, by rw [z]; ring⟩

theorem steep_of_clean {a c : Vec ℚ} (h1 : flatLimit ≤ c.Z - a.Z) : Steep a c := by
  unfold Steep
  unfold flatLimit at h1
  exact le_trans h1 (le_abs_self _)

theorem steep_of_clean' {a c : Vec ℚ} (h1 : flatLimit ≤ a.Z - c.Z) : Steep a c := by
  unfold Steep
  unfold flatLimit at h1
  rw [abs_sub_comm]
  exact le_trans h1 (le_abs_self _)

theorem segment_none {a c : Vec ℚ} {z : ℚ} (h : (z < a.Z ∧ z < c.Z) ∨ (a.Z < z ∧ c.Z < z)) : intersectSegment a c z = none := by
  cases hs : intersectSegment a c z with
  | none => rfl
  | some v =>
    obtain ⟨_, hv, hz⟩ := (segment_hit_iff a c v z).mp hs
    have := segment_off a c v z hv hz
    rcases h with h | h
    · exact absurd h this.1
    · exact absurd h this.2

/-- A cleanly cut triangle: the points at the height are exactly the points of the segment between the two reported points. -/
theorem clean_cut {t : Triangle ℚ} {z : ℚ} (h : CleanCut t z) (p : Nat) {v : Vec ℚ} (hv : InTriangle t v) (hz : v.Z = z) :
    ∃ q, intersectTriZPlane p t z = some q ∧ OnSegment q.v1 q.v2 v := by
  obtain ⟨n1, n2, n3, c12, c21, c23, c32, c31, c13⟩ := h
  obtain ⟨i, j, k, hi, hj, hk, hs, hx, hy, hzz⟩ := hv
  have up : ∀ a c : Vec ℚ, (a.Z < z → z < c.Z → flatLimit ≤ c.Z - a.Z) → a.Z < z → z < c.Z → ∃ w, intersectSegment a c z = some w :=
    fun a c hc h1 h2 => segment_cross a c z (steep_of_clean (hc h1 h2)) (.inl ⟨h1, h2⟩)
  have dn : ∀ a c : Vec ℚ, (c.Z < z → z < a.Z → flatLimit ≤ a.Z - c.Z) → c.Z < z → z < a.Z → ∃ w, intersectSegment a c z = some w :=
    fun a c hc h1 h2 => segment_cross a c z (steep_of_clean' (hc h1 h2)) (.inr ⟨h1, h2⟩)
  have on : ∀ {a c w : Vec ℚ}, intersectSegment a c z = some w → OnSegment a c w ∧ w.Z = z :=
    fun h => ((segment_hit_iff _ _ _ _).mp h).2
  rcases lt_or_gt_of_ne n1 with l1 | l1 <;> rcases lt_or_gt_of_ne n2 with l2 | l2 <;> rcases lt_or_gt_of_ne n3 with l3 | l3
  · exfalso
    have e1 : 0 ≤ i * (z - t.V1.Position.Z) := mul_nonneg hi (by linarith)
    have e2 : 0 ≤ j * (z - t.V2.Position.Z) := mul_nonneg hj (by linarith)
    have e3 : 0 ≤ k * (z - t.V3.Position.Z) := mul_nonneg hk (by linarith)
    have e4 : i * (z - t.V1.Position.Z) + j * (z - t.V2.Position.Z) + k * (z - t.V3.Position.Z) = 0 := by
      have : i * (z - t.V1.Position.Z) + j * (z - t.V2.Position.Z) + k * (z - t.V3.Position.Z) = (i + j + k) * z - v.Z := by rw [hzz]; ring
      rw [this, hs, hz]; ring
    have i0 : i * (z - t.V1.Position.Z) = 0 := by linarith
    have j0 : j * (z - t.V2.Position.Z) = 0 := by linarith
    have k0 : k * (z - t.V3.Position.Z) = 0 := by linarith
    have := (mul_eq_zero.mp i0).resolve_right (by intro h; linarith)
    have := (mul_eq_zero.mp j0).resolve_right (by intro h; linarith)
    have := (mul_eq_zero.mp k0).resolve_right (by intro h; linarith)
    linarith
  · -- V3 alone above
    obtain ⟨P, hP⟩ := up _ _ c23 l2 l3
    obtain ⟨Q, hQ⟩ := dn _ _ c13 l1 l3
    refine ⟨⟨P, Q, p⟩, by unfold intersectTriZPlane; rw [segment_none (.inr ⟨l1, l2⟩), hP, hQ], ?_⟩
    exact cut_segment (i := k) (j := j) (k := i) n3 hj hi (by linarith) (by rw [hx]; ring) (by rw [hy]; ring) (by rw [hzz]; ring) hz
      (onSegment_symm (on hP).1) (on hQ).1 (on hP).2 (on hQ).2
  · obtain ⟨P, hP⟩ := up _ _ c12 l1 l2
    obtain ⟨Q, hQ⟩ := dn _ _ c32 l3 l2
    refine ⟨⟨P, Q, p⟩, by unfold intersectTriZPlane; rw [hP, hQ], ?_⟩
    exact cut_segment (i := j) (j := i) (k := k) n2 hi hk (by linarith) (by rw [hx]; ring) (by rw [hy]; ring) (by rw [hzz]; ring) hz
      (onSegment_symm (on hP).1) (on hQ).1 (on hP).2 (on hQ).2
  · obtain ⟨P, hP⟩ := up _ _ c12 l1 l2
    obtain ⟨Q, hQ⟩ := dn _ _ c13 l1 l3
    refine ⟨⟨P, Q, p⟩, by unfold intersectTriZPlane; rw [hP, segment_none (.inl ⟨l2, l3⟩), hQ], ?_⟩
    exact cut_segment (i := i) (j := j) (k := k) n1 hj hk (by linarith) (by rw [hx]) (by rw [hy]) (by rw [hzz]) hz
      (on hP).1 (onSegment_symm (on hQ).1) (on hP).2 (on hQ).2
  · obtain ⟨P, hP⟩ := dn _ _ c21 l2 l1
    obtain ⟨Q, hQ⟩ := up _ _ c31 l3 l1
    refine ⟨⟨P, Q, p⟩, by unfold intersectTriZPlane; rw [hP, segment_none (.inr ⟨l2, l3⟩), hQ], ?_⟩
    exact cut_segment (i := i) (j := j) (k := k) n1 hj hk (by linarith) (by rw [hx]) (by rw [hy]) (by rw [hzz]) hz
      (on hP).1 (onSegment_symm (on hQ).1) (on hP).2 (on hQ).2
  · obtain ⟨P, hP⟩ := dn _ _ c21 l2 l1
    obtain ⟨Q, hQ⟩ := up _ _ c23 l2 l3
    refine ⟨⟨P, Q, p⟩, by unfold intersectTriZPlane; rw [hP, hQ], ?_⟩
    exact cut_segment (i := j) (j := i) (k := k) n2 hi hk (by linarith) (by rw [hx]; ring) (by rw [hy]; ring) (by rw [hzz]; ring) hz
      (onSegment_symm (on hP).1) (on hQ).1 (on hP).2 (on hQ).2
  · obtain ⟨P, hP⟩ := dn _ _ c32 l3 l2
    obtain ⟨Q, hQ⟩ := up _ _ c31 l3 l1
    refine ⟨⟨P, Q, p⟩, by unfold intersectTriZPlane; rw [segment_none (.inl ⟨l1, l2⟩), hP, hQ], ?_⟩
    exact cut_segment (i := k) (j := j) (k := i) n3 hj hi (by linarith) (by rw [hx]; ring) (by rw [hy]; ring) (by rw [hzz]; ring) hz
      (onSegment_symm (on hP).1) (on hQ).1 (on hP).2 (on hQ).2
  · exfalso
    have e1 : 0 ≤ i * (t.V1.Position.Z - z) := mul_nonneg hi (by linarith)
    have e2 : 0 ≤ j * (t.V2.Position.Z - z) := mul_nonneg hj (by linarith)
    have e3 : 0 ≤ k * (t.V3.Position.Z - z) := mul_nonneg hk (by linarith)
    have e4 : i * (t.V1.Position.Z - z) + j * (t.V2.Position.Z - z) + k * (t.V3.Position.Z - z) = 0 := by
      have : i * (t.V1.Position.Z - z) + j * (t.V2.Position.Z - z) + k * (t.V3.Position.Z - z) = v.Z - (i + j + k) * z := by rw [hzz]; ring
      rw [this, hs, hz]; ring
    have i0 : i * (t.V1.Position.Z - z) = 0 := by linarith
    have j0 : j * (t.V2.Position.Z - z) = 0 := by linarith
    have k0 : k * (t.V3.Position.Z - z) = 0 := by linarith
    have := (mul_eq_zero.mp i0).resolve_right (by intro h; linarith)
    have := (mul_eq_zero.mp j0).resolve_right (by intro h; linarith)
    have := (mul_eq_zero.mp k0).resolve_right (by intro h; linarith)
    linarith

/-! ## Cells near the segment -/

/-- Between two points and the middles of their cells the distance is at most half a cell. -/
theorem half_cell (u w t : ℚ) (h0 : 0 ≤ t) (h1 : t ≤ 1) :
    |(u + t * (w - u)) - ((⌊u⌋ : ℚ) + t * ((⌊w⌋ : ℚ) - ⌊u⌋) + 1 / 2)| ≤ 1 / 2 := by
  have a1 := Int.floor_le u
  have a2 := Int.lt_floor_add_one u
  have b1 := Int.floor_le w
  have b2 := Int.lt_floor_add_one w
  have e : (u + t * (w - u)) - ((⌊u⌋ : ℚ) + t * ((⌊w⌋ : ℚ) - ⌊u⌋) + 1 / 2)
      = (1 - t) * (u - ⌊u⌋ - 1 / 2) + t * (w - ⌊w⌋ - 1 / 2) := by ring
  rw [e, abs_le]
  have f : ∀ d e : ℚ, -(1/2) ≤ d → d ≤ 1/2 → -(1/2) ≤ e → e ≤ 1/2 → -(1/2) ≤ (1 - t) * d + t * e ∧ (1 - t) * d + t * e ≤ 1/2 := by
    intro d e d1 d2 e1 e2
    have h1' : 0 ≤ 1 - t := by linarith
    have := mul_nonneg h1' (by linarith : 0 ≤ d + 1/2)
    have := mul_nonneg h1' (by linarith : 0 ≤ 1/2 - d)
    have := mul_nonneg h0 (by linarith : 0 ≤ e + 1/2)
    have := mul_nonneg h0 (by linarith : 0 ≤ 1/2 - e)
    constructor <;> linarith
  exact f _ _ (by linarith) (by linarith) (by linarith) (by linarith)

/-- **C97.** Every cell a triangle touches is within one voxel of a point of the triangle at the height of the slice. -/
theorem touched_near {b : BinVOX ℚ} (hV : 0 < b.VoxelsPerMM) {m : Mesh ℚ} {zi y x : Int} {p : Nat} (h : Touches b m zi y p x) :
    ∃ v, InTriangle (m.heap p) v ∧ Around b 1 x y zi v := by
  obtain ⟨-, -, -, q, hq, hm⟩ := h
  rw [sliceHeight_rat] at hq
  obtain ⟨-, z1, z2, e1, e2⟩ := tri_hit_cases _ _ _ _ hq
  unfold pairPoints at hm
  obtain ⟨t, h0, h1, n1, n2⟩ := rasterLine_near hm
  refine ⟨along q.v1 q.v2 t, inTriangle_convex (onEdge_in e1) (onEdge_in e2) h0 h1, (around_iff hV).mpr ⟨?_, ?_, ?_⟩⟩
  · show q.v1.Z + t * (q.v2.Z - q.v1.Z) = _
    rw [z1, z2]; ring
  · rw [gx_along]
    rw [gridCoord_rat, gridCoord_rat] at n1
    have := half_cell (gx b q.v1) (gx b q.v2) t h0 h1
    unfold gx at *
    rw [abs_le] at *
    constructor <;> linarith
  · rw [gy_along]
    rw [gridCoord_rat, gridCoord_rat] at n2
    have := half_cell (gy b q.v1) (gy b q.v2) t h0 h1
    unfold gy at *
    rw [abs_le] at *
    constructor <;> linarith

/-- **C97.** Every point of a cleanly cut triangle at the height of the slice is within one and a half voxels of a cell
    the triangle touches, or of a cell in a row that was not asked for. -/
theorem touched_covers {b : BinVOX ℚ} (hV : 0 < b.VoxelsPerMM) {m : Mesh ℚ} {zi : Int} {p : Nat} (hp : p ∈ m.Triangles)
    (hc : CleanCut (m.heap p) (sliceMiddle b zi)) {v : Vec ℚ} (hv : InTriangle (m.heap p) v) (hz : v.Z = sliceMiddle b zi) :
    ∃ x y, Around b (3 / 2) x y zi v ∧ (0 ≤ y → y < b.NY → Touches b m zi y p x) := by
  obtain ⟨q, hq, hs⟩ := clean_cut hc p hv hz
  rw [onSegment_along] at hs
  obtain ⟨t, h0, h1, rfl⟩ := hs
  obtain ⟨x, y, hm, n1, n2⟩ := rasterLine_covers (gridCoord b.VoxelsPerMM q.v1.X b.TX) (gridCoord b.VoxelsPerMM q.v1.Y b.TY)
    (gridCoord b.VoxelsPerMM q.v2.X b.TX) (gridCoord b.VoxelsPerMM q.v2.Y b.TY) h0 h1
  refine ⟨x, y, (around_iff hV).mpr ⟨hz, ?_, ?_⟩, fun y0 y1 => ⟨hp, y0, y1, q, by rw [sliceHeight_rat]; exact hq, hm⟩⟩
  · rw [gx_along]
    rw [gridCoord_rat, gridCoord_rat] at n1
    have := half_cell (gx b q.v1) (gx b q.v2) t h0 h1
    unfold gx at *
    rw [abs_le] at *
    constructor <;> linarith
  · rw [gy_along]
    rw [gridCoord_rat, gridCoord_rat] at n2
    have := half_cell (gy b q.v1) (gy b q.v2) t h0 h1
    unfold gy at *
    rw [abs_le] at *
    constructor <;> linarith

end StlDice
