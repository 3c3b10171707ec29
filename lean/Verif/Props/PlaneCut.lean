import Verif.Props.Voxelize
import Mathlib.Tactic.FieldSimp
import Mathlib.Tactic.Linarith

/-! # Intersections with a slice plane in exact arithmetic (C32) -/

namespace StlDice
open Spec GoFloat BinVOX

namespace Spec

/-- `v` is a point of the segment from `a` to `c`. -/
def OnSegment (a c v : Vec ℚ) : Prop :=
  ∃ t : ℚ, 0 ≤ t ∧ t ≤ 1 ∧ v.X = a.X + t * (c.X - a.X) ∧ v.Y = a.Y + t * (c.Y - a.Y) ∧
    v.Z = a.Z + t * (c.Z - a.Z)

/-- `v` is a point of one of the three edges of the triangle. -/
def OnEdge (t : Triangle ℚ) (v : Vec ℚ) : Prop :=
  OnSegment t.V1.Position t.V2.Position v ∨ OnSegment t.V2.Position t.V3.Position v ∨
    OnSegment t.V3.Position t.V1.Position v

/-- The edge rises or falls by at least `epsilon = 1e-9`. -/
def Steep (a c : Vec ℚ) : Prop := 1 / 1000000000 ≤ |c.Z - a.Z|

end Spec

theorem convex_gt (t a c z : ℚ) (h0 : 0 ≤ t) (h1 : t ≤ 1) (ha : z < a) (hc : z < c) :
    z < (1 - t) * a + t * c := by
  rcases eq_or_lt_of_le h0 with rfl | hp
  · linarith
  · have e1 : 0 < t * (c - z) := mul_pos hp (by linarith)
    have e2 : 0 ≤ (1 - t) * (a - z) := mul_nonneg (by linarith) (by linarith)
    linarith

theorem convex_lt (t a c z : ℚ) (h0 : 0 ≤ t) (h1 : t ≤ 1) (ha : a < z) (hc : c < z) :
    (1 - t) * a + t * c < z := by
  rcases eq_or_lt_of_le h0 with rfl | hp
  · linarith
  · have e1 : 0 < t * (z - c) := mul_pos hp (by linarith)
    have e2 : 0 ≤ (1 - t) * (z - a) := mul_nonneg (by linarith) (by linarith)
    linarith

/-- **C32.** An edge and a plane: exactly the steep edges reaching height `z` are reported, with the
    one point of the edge at height `z`. -/
theorem segment_hit_iff (a c v : Vec ℚ) (z : ℚ) :
    intersectSegment a c z = some v ↔ Steep a c ∧ OnSegment a c v ∧ v.Z = z := by
  unfold intersectSegment Steep OnSegment
  dsimp only [Vec.Sub, Vec.Dot, Vec.Add, Vec.MulScalar, epsilon, GoFloat.add, GoFloat.sub, GoFloat.mul,
    GoFloat.div, GoFloat.neg, GoFloat.lt, GoFloat.ofInt, GoFloat.lit]
  have hd : ((0 : Int) : ℚ) * (c.X - a.X) + ((0 : Int) : ℚ) * (c.Y - a.Y) + ((1 : Int) : ℚ) * (c.Z - a.Z)
      = c.Z - a.Z := by push_cast; ring
  have hn : ((0 : Int) : ℚ) * (a.X - ((0 : Int) : ℚ)) + ((0 : Int) : ℚ) * (a.Y - ((0 : Int) : ℚ))
      + ((-1 : Int) : ℚ) * (a.Z - z) = z - a.Z := by push_cast; ring
  rw [hd, hn]
  by_cases h : (decide (-(1 / 1000000000 : ℚ) < c.Z - a.Z) && decide (c.Z - a.Z < 1 / 1000000000)) = true
  · refine (iff_of_eq (congrArg (fun o => o = some v) (if_pos h))).trans ?_
    rw [Bool.and_eq_true, decide_eq_true_eq, decide_eq_true_eq] at h
    constructor
    · intro h; cases h
    · rintro ⟨h1, _⟩
      have := abs_lt.mpr h
      linarith
  · refine (iff_of_eq (congrArg (fun o => o = some v) (if_neg h))).trans ?_
    have hs : 1 / 1000000000 ≤ |c.Z - a.Z| := by
      by_contra hc
      rw [not_le, abs_lt] at hc
      apply h
      rw [Bool.and_eq_true, decide_eq_true_eq, decide_eq_true_eq]
      exact hc
    have hne : c.Z - a.Z ≠ 0 := by
      intro h0; rw [h0] at hs; norm_num at hs
    have ht : ∀ t : ℚ, (a.Z + t * (c.Z - a.Z) = z) ↔ t = (z - a.Z) / (c.Z - a.Z) := by
      intro t
      rw [eq_div_iff hne]
      constructor <;> intro h <;> linarith
    by_cases hr : (decide ((z - a.Z) / (c.Z - a.Z) < ((0 : Int) : ℚ)) ||
        decide (((1 : Int) : ℚ) < (z - a.Z) / (c.Z - a.Z))) = true
    · refine (iff_of_eq (congrArg (fun o => o = some v) (if_pos hr))).trans ?_
      rw [Bool.or_eq_true, decide_eq_true_eq, decide_eq_true_eq] at hr
      push_cast at hr
      constructor
      · intro h; cases h
      · rintro ⟨_, ⟨t, h0, h1, _, _, h4⟩, h5⟩
        rw [h4, ht] at h5
        rw [← h5] at hr
        rcases hr with hr | hr <;> linarith
    · refine (iff_of_eq (congrArg (fun o => o = some v) (if_neg hr))).trans ?_
      rw [Bool.or_eq_true, decide_eq_true_eq, decide_eq_true_eq] at hr
      push_cast at hr
      push Not at hr
      obtain ⟨X, Y, Z⟩ := v
      constructor
      · intro he
        injection he with he
        injection he with e1 e2 e3
        refine ⟨hs, ⟨(z - a.Z) / (c.Z - a.Z), hr.1, hr.2, ?_, ?_, ?_⟩, ?_⟩
        · rw [← e1]; ring
        · rw [← e2]; ring
        · rw [← e3]; ring
        · show Z = z
          rw [← e3, mul_comm, (ht _).mpr rfl]
      · rintro ⟨_, ⟨t, h0, h1, e1, e2, e3⟩, h5⟩
        simp only at e1 e2 e3 h5
        have : t = (z - a.Z) / (c.Z - a.Z) := (ht t).mp (by rw [← e3, h5])
        rw [← this, e1, e2, e3, mul_comm t, mul_comm t, mul_comm t]

/-- Which edges are hit decides the result for a triangle: the first two of the three edges
    `V1V2`, `V2V3`, `V3V1` that are hit. -/
theorem tri_hit_cases (p : Nat) (t : Triangle ℚ) (z : ℚ) (q : Pair ℚ)
    (h : intersectTriZPlane p t z = some q) :
    q.tri = p ∧ q.v1.Z = z ∧ q.v2.Z = z ∧ OnEdge t q.v1 ∧ OnEdge t q.v2 := by
  have hp := intersectTri_ptr p t z q h
  refine ⟨hp, ?_⟩
  unfold intersectTriZPlane at h
  dsimp only at h
  have s1 := segment_hit_iff t.V1.Position t.V2.Position
  have s2 := segment_hit_iff t.V2.Position t.V3.Position
  have s3 := segment_hit_iff t.V3.Position t.V1.Position
  split at h
  · rename_i v1 v2 h1 h2
    injection h with h; subst h
    rw [s1] at h1; rw [s2] at h2
    exact ⟨h1.2.2, h2.2.2, Or.inl h1.2.1, Or.inr (Or.inl h2.2.1)⟩
  · split at h
    · rename_i _ _ _ _ v1 v3 h1 h3
      injection h with h; subst h
      rw [s1] at h1; rw [s3] at h3
      exact ⟨h1.2.2, h3.2.2, Or.inl h1.2.1, Or.inr (Or.inr h3.2.1)⟩
    · rename_i _ _ _ v1 v2 v3 _ h2 h3
      injection h with h; subst h
      rw [s2] at h2; rw [s3] at h3
      exact ⟨h2.2.2, h3.2.2, Or.inr (Or.inl h2.2.1), Or.inr (Or.inr h3.2.1)⟩
    · cases h

/-- **C32.** A triangle entirely above or entirely below the plane, or with no steep edge, yields
    no intersection. -/
theorem tri_miss (p : Nat) (t : Triangle ℚ) (z : ℚ)
    (h : (z < t.V1.Position.Z ∧ z < t.V2.Position.Z ∧ z < t.V3.Position.Z) ∨
      (t.V1.Position.Z < z ∧ t.V2.Position.Z < z ∧ t.V3.Position.Z < z) ∨
      (¬ Steep t.V1.Position t.V2.Position ∧ ¬ Steep t.V2.Position t.V3.Position ∧
        ¬ Steep t.V3.Position t.V1.Position)) :
    intersectTriZPlane p t z = none := by
  have seg : ∀ a c : Vec ℚ, (z < a.Z ∧ z < c.Z) ∨ (a.Z < z ∧ c.Z < z) ∨ ¬ Steep a c →
      intersectSegment a c z = none := by
    intro a c h
    cases hs : intersectSegment a c z with
    | none => rfl
    | some v =>
      exfalso
      obtain ⟨h1, ⟨t, t0, t1, _, _, e⟩, hz⟩ := (segment_hit_iff a c v z).mp hs
      rw [e] at hz
      have e2 : a.Z + t * (c.Z - a.Z) = (1 - t) * a.Z + t * c.Z := by ring
      rw [e2] at hz
      rcases h with ⟨ha, hc⟩ | ⟨ha, hc⟩ | h
      · have := convex_gt t a.Z c.Z z t0 t1 ha hc
        linarith
      · have := convex_lt t a.Z c.Z z t0 t1 ha hc
        linarith
      · exact h h1
  have h1 := seg t.V1.Position t.V2.Position (by
    rcases h with h | h | h
    · exact Or.inl ⟨h.1, h.2.1⟩
    · exact Or.inr (Or.inl ⟨h.1, h.2.1⟩)
    · exact Or.inr (Or.inr h.1))
  have h2 := seg t.V2.Position t.V3.Position (by
    rcases h with h | h | h
    · exact Or.inl ⟨h.2.1, h.2.2⟩
    · exact Or.inr (Or.inl ⟨h.2.1, h.2.2⟩)
    · exact Or.inr (Or.inr h.2.1))
  have h3 := seg t.V3.Position t.V1.Position (by
    rcases h with h | h | h
    · exact Or.inl ⟨h.2.2, h.1⟩
    · exact Or.inr (Or.inl ⟨h.2.2, h.1⟩)
    · exact Or.inr (Or.inr h.2.2))
  unfold intersectTriZPlane
  rw [h1, h2, h3]

/-- The crossing point of an edge whose ends are strictly on different sides. -/
theorem segment_cross (a c : Vec ℚ) (z : ℚ) (hs : Steep a c)
    (h : (a.Z < z ∧ z < c.Z) ∨ (c.Z < z ∧ z < a.Z)) :
    ∃ v, intersectSegment a c z = some v := by
  have hne : c.Z - a.Z ≠ 0 := by
    intro h0; rcases h with h | h <;> linarith
  refine ⟨⟨a.X + (z - a.Z) / (c.Z - a.Z) * (c.X - a.X), a.Y + (z - a.Z) / (c.Z - a.Z) * (c.Y - a.Y), z⟩,
    (segment_hit_iff a c _ z).mpr ⟨hs, ⟨(z - a.Z) / (c.Z - a.Z), ?_, ?_, rfl, rfl, ?_⟩, rfl⟩⟩
  · rcases h with h | h
    · exact div_nonneg (by linarith) (by linarith)
    · exact div_nonneg_of_nonpos (by linarith) (by linarith)
  · rcases h with h | h
    · rw [div_le_one (by linarith)]; linarith
    · rw [div_le_one_of_neg (by linarith)]; linarith
  · show z = a.Z + (z - a.Z) / (c.Z - a.Z) * (c.Z - a.Z)
    rw [div_mul_cancel₀ _ hne]; ring

/-- A point of an edge strictly on one side is not at height `z`. -/
theorem segment_off (a c v : Vec ℚ) (z : ℚ) (h : OnSegment a c v) (hz : v.Z = z) :
    ¬ (z < a.Z ∧ z < c.Z) ∧ ¬ (a.Z < z ∧ c.Z < z) := by
  obtain ⟨t, t0, t1, _, _, e⟩ := h
  rw [e] at hz
  have e2 : a.Z + t * (c.Z - a.Z) = (1 - t) * a.Z + t * c.Z := by ring
  rw [e2] at hz
  constructor
  · rintro ⟨ha, hc⟩
    have := convex_gt t a.Z c.Z z t0 t1 ha hc
    linarith
  · rintro ⟨ha, hc⟩
    have := convex_lt t a.Z c.Z z t0 t1 ha hc
    linarith

/-- Two points of a steep edge at the same height are equal. -/
theorem segment_unique (a c v w : Vec ℚ) (z : ℚ) (hs : Steep a c) (hv : OnSegment a c v)
    (hw : OnSegment a c w) (hvz : v.Z = z) (hwz : w.Z = z) : v = w := by
  have h1 := (segment_hit_iff a c v z).mpr ⟨hs, hv, hvz⟩
  have h2 := (segment_hit_iff a c w z).mpr ⟨hs, hw, hwz⟩
  rw [h1] at h2
  injection h2

/-- **C32.** A triangle in general position (no vertex exactly at height `z`, crossed edges
    steep) with vertices on both sides is intersected, and the two points reported are all the
    points of its edges at height `z`. -/
theorem tri_hit_general (p : Nat) (t : Triangle ℚ) (z : ℚ)
    (h1 : t.V1.Position.Z ≠ z) (h2 : t.V2.Position.Z ≠ z) (h3 : t.V3.Position.Z ≠ z)
    (hs12 : Steep t.V1.Position t.V2.Position) (hs23 : Steep t.V2.Position t.V3.Position)
    (hs31 : Steep t.V3.Position t.V1.Position)
    (hb : ¬ (z < t.V1.Position.Z ∧ z < t.V2.Position.Z ∧ z < t.V3.Position.Z))
    (ha : ¬ (t.V1.Position.Z < z ∧ t.V2.Position.Z < z ∧ t.V3.Position.Z < z)) :
    ∃ q, intersectTriZPlane p t z = some q ∧
      ∀ v, v.Z = z → (OnEdge t v ↔ v = q.v1 ∨ v = q.v2) := by
  have cross := segment_cross
  have none_of : ∀ a c : Vec ℚ, (z < a.Z ∧ z < c.Z) ∨ (a.Z < z ∧ c.Z < z) →
      intersectSegment a c z = none := by
    intro a c h
    cases hs : intersectSegment a c z with
    | none => rfl
    | some v =>
      obtain ⟨_, hv, hz⟩ := (segment_hit_iff a c v z).mp hs
      have := segment_off a c v z hv hz
      rcases h with h | h
      · exact absurd h this.1
      · exact absurd h this.2
  have only : ∀ (a c : Vec ℚ) (w v : Vec ℚ), Steep a c → intersectSegment a c z = some w → v.Z = z →
      (OnSegment a c v ↔ v = w) := by
    intro a c w v hs hw hz
    obtain ⟨_, hw1, hw2⟩ := (segment_hit_iff a c w z).mp hw
    constructor
    · intro hv; exact segment_unique a c v w z hs hv hw1 hz hw2
    · rintro rfl; exact hw1
  have never : ∀ (a c v : Vec ℚ), (z < a.Z ∧ z < c.Z) ∨ (a.Z < z ∧ c.Z < z) → v.Z = z →
      ¬ OnSegment a c v := by
    intro a c v h hz hv
    have := segment_off a c v z hv hz
    rcases h with h | h
    · exact this.1 h
    · exact this.2 h
  rcases lt_or_gt_of_ne h1 with l1 | l1 <;> rcases lt_or_gt_of_ne h2 with l2 | l2 <;>
    rcases lt_or_gt_of_ne h3 with l3 | l3
  · exact absurd ⟨l1, l2, l3⟩ ha
  · -- 1,2 below, 3 above: edges 23 and 31
    obtain ⟨v, hv⟩ := cross _ _ z hs23 (Or.inl ⟨l2, l3⟩)
    obtain ⟨w, hw⟩ := cross _ _ z hs31 (Or.inr ⟨l1, l3⟩)
    refine ⟨⟨v, w, p⟩, ?_, ?_⟩
    · unfold intersectTriZPlane; rw [none_of _ _ (Or.inr ⟨l1, l2⟩), hv, hw]
    · intro u hu
      have := never _ _ u (Or.inr ⟨l1, l2⟩) hu
      unfold OnEdge
      rw [only _ _ v u hs23 hv hu, only _ _ w u hs31 hw hu]
      simp [this]
  · obtain ⟨v, hv⟩ := cross _ _ z hs12 (Or.inl ⟨l1, l2⟩)
    obtain ⟨w, hw⟩ := cross _ _ z hs23 (Or.inr ⟨l3, l2⟩)
    refine ⟨⟨v, w, p⟩, ?_, ?_⟩
    · unfold intersectTriZPlane; rw [hv, hw]
    · intro u hu
      have := never _ _ u (Or.inr ⟨l3, l1⟩) hu
      unfold OnEdge
      rw [only _ _ v u hs12 hv hu, only _ _ w u hs23 hw hu]
      simp [this]
  · obtain ⟨v, hv⟩ := cross _ _ z hs12 (Or.inl ⟨l1, l2⟩)
    obtain ⟨w, hw⟩ := cross _ _ z hs31 (Or.inr ⟨l1, l3⟩)
    refine ⟨⟨v, w, p⟩, ?_, ?_⟩
    · unfold intersectTriZPlane; rw [hv, none_of _ _ (Or.inl ⟨l2, l3⟩), hw]
    · intro u hu
      have := never _ _ u (Or.inl ⟨l2, l3⟩) hu
      unfold OnEdge
      rw [only _ _ v u hs12 hv hu, only _ _ w u hs31 hw hu]
      simp [this]
  · obtain ⟨v, hv⟩ := cross _ _ z hs12 (Or.inr ⟨l2, l1⟩)
    obtain ⟨w, hw⟩ := cross _ _ z hs31 (Or.inl ⟨l3, l1⟩)
    refine ⟨⟨v, w, p⟩, ?_, ?_⟩
    · unfold intersectTriZPlane; rw [hv, none_of _ _ (Or.inr ⟨l2, l3⟩), hw]
    · intro u hu
      have := never _ _ u (Or.inr ⟨l2, l3⟩) hu
      unfold OnEdge
      rw [only _ _ v u hs12 hv hu, only _ _ w u hs31 hw hu]
      simp [this]
  · obtain ⟨v, hv⟩ := cross _ _ z hs12 (Or.inr ⟨l2, l1⟩)
    obtain ⟨w, hw⟩ := cross _ _ z hs23 (Or.inl ⟨l2, l3⟩)
    refine ⟨⟨v, w, p⟩, ?_, ?_⟩
    · unfold intersectTriZPlane; rw [hv, hw]
    · intro u hu
      have := never _ _ u (Or.inl ⟨l3, l1⟩) hu
      unfold OnEdge
      rw [only _ _ v u hs12 hv hu, only _ _ w u hs23 hw hu]
      simp [this]
  · obtain ⟨v, hv⟩ := cross _ _ z hs23 (Or.inr ⟨l3, l2⟩)
    obtain ⟨w, hw⟩ := cross _ _ z hs31 (Or.inl ⟨l3, l1⟩)
    refine ⟨⟨v, w, p⟩, ?_, ?_⟩
    · unfold intersectTriZPlane; rw [none_of _ _ (Or.inl ⟨l1, l2⟩), hv, hw]
    · intro u hu
      have := never _ _ u (Or.inl ⟨l1, l2⟩) hu
      unfold OnEdge
      rw [only _ _ v u hs23 hv hu, only _ _ w u hs31 hw hu]
      simp [this]
  · exact absurd ⟨l1, l2, l3⟩ hb

/-- The limit of `tri_hit_general`: with the vertex `V2` exactly on the plane and the other two on
    different sides, both reported points are `V2` and the crossing point of the opposite edge
    `V3V1` is lost, whatever the triangle (if its edges are steep). -/
theorem tri_vertex_on_plane (p : Nat) (t : Triangle ℚ) (z : ℚ) (h2 : t.V2.Position.Z = z)
    (hs12 : Steep t.V1.Position t.V2.Position) (hs23 : Steep t.V2.Position t.V3.Position) :
    intersectTriZPlane p t z = some ⟨t.V2.Position, t.V2.Position, p⟩ := by
  have e1 : intersectSegment t.V1.Position t.V2.Position z = some t.V2.Position :=
    (segment_hit_iff _ _ _ _).mpr ⟨hs12, ⟨1, by norm_num, le_refl _, by ring, by ring, by ring⟩, h2⟩
  have e2 : intersectSegment t.V2.Position t.V3.Position z = some t.V2.Position :=
    (segment_hit_iff _ _ _ _).mpr ⟨hs23, ⟨0, le_refl _, by norm_num, by ring, by ring, by ring⟩, h2⟩
  unfold intersectTriZPlane
  rw [e1, e2]

/-- A 3 mm wide triangle through the plane `z = 0` with `V2` on it: the far end at `(3, 0, 0)` is a
    point of the edge `V3V1` but is not reported. -/
example : ∃ t : Triangle ℚ, OnEdge t ⟨3, 0, 0⟩ ∧
    intersectTriZPlane 7 t 0 = some ⟨⟨0, 0, 0⟩, ⟨0, 0, 0⟩, 7⟩ := by
  refine ⟨⟨⟨⟨3, 0, -1⟩, ⟨0, 1, 0⟩⟩, ⟨⟨0, 0, 0⟩, ⟨0, 1, 0⟩⟩, ⟨⟨3, 0, 1⟩, ⟨0, 1, 0⟩⟩⟩, ?_, ?_⟩
  · exact Or.inr (Or.inr ⟨1 / 2, by norm_num, by norm_num, by norm_num, by norm_num, by norm_num⟩)
  · refine tri_vertex_on_plane 7 _ 0 rfl ?_ ?_
    · show (1 / 1000000000 : ℚ) ≤ |0 - -1|
      rw [abs_of_nonneg] <;> norm_num
    · show (1 / 1000000000 : ℚ) ≤ |1 - 0|
      rw [abs_of_nonneg] <;> norm_num

/-- A triangle meeting the hypotheses of `tri_hit_general`. -/
example : ∃ t : Triangle ℚ, t.V1.Position.Z ≠ 0 ∧ t.V2.Position.Z ≠ 0 ∧ t.V3.Position.Z ≠ 0 ∧
    Steep t.V1.Position t.V2.Position ∧ Steep t.V2.Position t.V3.Position ∧
    Steep t.V3.Position t.V1.Position ∧ t.V1.Position.Z < 0 ∧ 0 < t.V2.Position.Z := by
  refine ⟨⟨⟨⟨3, 0, -1⟩, ⟨0, 1, 0⟩⟩, ⟨⟨0, 0, 2⟩, ⟨0, 1, 0⟩⟩, ⟨⟨3, 0, 1⟩, ⟨0, 1, 0⟩⟩⟩, ?_⟩
  refine ⟨by norm_num, by norm_num, by norm_num, ?_, ?_, ?_, by norm_num, by norm_num⟩
  · show (1 / 1000000000 : ℚ) ≤ |2 - -1|
    rw [abs_of_nonneg] <;> norm_num
  · show (1 / 1000000000 : ℚ) ≤ |1 - 2|
    rw [abs_of_nonpos] <;> norm_num
  · show (1 / 1000000000 : ℚ) ≤ |-1 - 1|
    rw [abs_of_nonpos] <;> norm_num

/-- `tri_hit_cases` on a triangle cut by the plane `z = 0`. -/
example := tri_hit_cases 7 ⟨⟨⟨3, 0, -1⟩, ⟨0, 1, 0⟩⟩, ⟨⟨0, 0, 2⟩, ⟨0, 1, 0⟩⟩, ⟨⟨3, 0, 1⟩, ⟨0, 1, 0⟩⟩⟩ 0 ⟨⟨2, 0, 0⟩, ⟨3, 0, 0⟩, 7⟩ (by decide +kernel)

/-- `tri_miss` on a triangle above the plane, and on a flat one in it. -/
example : intersectTriZPlane 7 (⟨⟨⟨3, 0, 1⟩, ⟨0, 1, 0⟩⟩, ⟨⟨0, 0, 2⟩, ⟨0, 1, 0⟩⟩, ⟨⟨3, 0, 1⟩, ⟨0, 1, 0⟩⟩⟩ : Triangle ℚ) 0 = none ∧
    intersectTriZPlane 7 (⟨⟨⟨3, 0, 0⟩, ⟨0, 1, 0⟩⟩, ⟨⟨0, 0, 0⟩, ⟨0, 1, 0⟩⟩, ⟨⟨3, 1, 0⟩, ⟨0, 1, 0⟩⟩⟩ : Triangle ℚ) 0 = none :=
  ⟨tri_miss _ _ _ (.inl ⟨by decide +kernel, by decide +kernel, by decide +kernel⟩),
    tri_miss _ _ _ (.inr (.inr ⟨by unfold Steep; decide +kernel, by unfold Steep; decide +kernel, by unfold Steep; decide +kernel⟩))⟩

end StlDice
