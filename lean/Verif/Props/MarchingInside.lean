import Verif.Lemmas.MarchingRay

/-! # MarchingCubes encloses exactly the voxels of the model (C107) -/

namespace StlDice
namespace Marching
open BinVOX Spec

/-! ## Triangles against a ray, in the plane across it -/

/-- The orientation of `A`, `C` seen from `(y, z)`. -/
def ori (y z : ℚ) (A C : Vec ℚ) : ℚ := (A.Y - y) * (C.Z - z) - (A.Z - z) * (C.Y - y)

theorem normal_x (t : Tri (Vec ℚ)) (y z : ℚ) :
    (normal t).X = ori y z t.V1 t.V2 + ori y z t.V2 t.V3 + ori y z t.V3 t.V1 := by
  unfold normal vcross vsub ori
  dsimp only
  ring

theorem blend_ori {t : Tri (Vec ℚ)} {w : Vec ℚ} {s a c d : ℚ} (h : a + c + d = 1)
    (e : (⟨w.X + s, w.Y, w.Z⟩ : Vec ℚ) = blend t a c d) :
    ori w.Y w.Z t.V2 t.V3 = a * (normal t).X ∧ ori w.Y w.Z t.V3 t.V1 = c * (normal t).X ∧
      ori w.Y w.Z t.V1 t.V2 = d * (normal t).X := by
  unfold blend at e
  injection e with _ ey ez
  have ha : a = 1 - c - d := by linarith
  unfold normal vcross vsub ori
  rw [ey, ez, ha]
  dsimp only
  refine ⟨?_, ?_, ?_⟩ <;> ring

def PosAt (w : Vec ℚ) (t : Tri (Vec ℚ)) : Prop :=
  0 < ori w.Y w.Z t.V1 t.V2 ∧ 0 < ori w.Y w.Z t.V2 t.V3 ∧ 0 < ori w.Y w.Z t.V3 t.V1
def NegAt (w : Vec ℚ) (t : Tri (Vec ℚ)) : Prop :=
  ori w.Y w.Z t.V1 t.V2 < 0 ∧ ori w.Y w.Z t.V2 t.V3 < 0 ∧ ori w.Y w.Z t.V3 t.V1 < 0
def MixedAt (w : Vec ℚ) (t : Tri (Vec ℚ)) : Prop :=
  (0 < ori w.Y w.Z t.V1 t.V2 ∨ 0 < ori w.Y w.Z t.V2 t.V3 ∨ 0 < ori w.Y w.Z t.V3 t.V1) ∧
  (ori w.Y w.Z t.V1 t.V2 < 0 ∨ ori w.Y w.Z t.V2 t.V3 < 0 ∨ ori w.Y w.Z t.V3 t.V1 < 0)

theorem mixed_missed {w : Vec ℚ} {t : Tri (Vec ℚ)} (h : MixedAt w t) : ¬ RayMeets w t := by
  rintro ⟨s, a, c, d, -, ha, hc, hd, h1, e⟩
  obtain ⟨o1, o2, o3⟩ := blend_ori h1 e
  unfold MixedAt at h
  rw [o1, o2, o3] at h
  rcases le_total 0 (normal t).X with hn | hn
  · have := mul_nonneg ha hn
    have := mul_nonneg hc hn
    have := mul_nonneg hd hn
    rcases h.2 with h | h | h <;> linarith
  · have := mul_nonpos_of_nonneg_of_nonpos ha hn
    have := mul_nonpos_of_nonneg_of_nonpos hc hn
    have := mul_nonpos_of_nonneg_of_nonpos hd hn
    rcases h.1 with h | h | h <;> linarith

theorem hits_meets {w : Vec ℚ} {t : Tri (Vec ℚ)} (h : RayHits w t) : RayMeets w t := by
  obtain ⟨s, a, c, d, hs, ha, hc, hd, h1, e⟩ := h
  exact ⟨s, a, c, d, hs.le, ha.le, hc.le, hd.le, h1, e⟩

/-- A ray through the inside of the triangle, that starts left of it. -/
theorem hits_of {w : Vec ℚ} {t : Tri (Vec ℚ)} (h : PosAt w t ∨ NegAt w t)
    (hx : ∀ a c d : ℚ, 0 < a → 0 < c → 0 < d → a + c + d = 1 → (blend t a c d).Y = w.Y → (blend t a c d).Z = w.Z →
      w.X < (blend t a c d).X) : RayHits w t := by
  have e := normal_x t w.Y w.Z
  have n0 : (normal t).X ≠ 0 := by
    rcases h with ⟨h1, h2, h3⟩ | ⟨h1, h2, h3⟩
    · exact (by linarith : (0 : ℚ) < (normal t).X).ne'
    · exact (by linarith : (normal t).X < (0 : ℚ)).ne
  have pos : 0 < ori w.Y w.Z t.V2 t.V3 / (normal t).X ∧ 0 < ori w.Y w.Z t.V3 t.V1 / (normal t).X ∧
      0 < ori w.Y w.Z t.V1 t.V2 / (normal t).X := by
    rcases h with ⟨h1, h2, h3⟩ | ⟨h1, h2, h3⟩
    · have : (0 : ℚ) < (normal t).X := by linarith
      exact ⟨div_pos h2 this, div_pos h3 this, div_pos h1 this⟩
    · have : (normal t).X < (0 : ℚ) := by linarith
      exact ⟨div_pos_of_neg_of_neg h2 this, div_pos_of_neg_of_neg h3 this, div_pos_of_neg_of_neg h1 this⟩
  have sum : ori w.Y w.Z t.V2 t.V3 / (normal t).X + ori w.Y w.Z t.V3 t.V1 / (normal t).X + ori w.Y w.Z t.V1 t.V2 / (normal t).X = 1 := by
    rw [← add_div, ← add_div, div_eq_one_iff_eq n0, e]
    ring
  have by' : (blend t (ori w.Y w.Z t.V2 t.V3 / (normal t).X) (ori w.Y w.Z t.V3 t.V1 / (normal t).X)
      (ori w.Y w.Z t.V1 t.V2 / (normal t).X)).Y = w.Y := by
    show _ * _ + _ * _ + _ * _ = _
    field_simp
    rw [e]
    unfold ori
    ring
  have bz' : (blend t (ori w.Y w.Z t.V2 t.V3 / (normal t).X) (ori w.Y w.Z t.V3 t.V1 / (normal t).X)
      (ori w.Y w.Z t.V1 t.V2 / (normal t).X)).Z = w.Z := by
    show _ * _ + _ * _ + _ * _ = _
    field_simp
    rw [e]
    unfold ori
    ring
  have hlt := hx _ _ _ pos.1 pos.2.1 pos.2.2 sum by' bz'
  refine ⟨(blend t (ori w.Y w.Z t.V2 t.V3 / (normal t).X) (ori w.Y w.Z t.V3 t.V1 / (normal t).X)
      (ori w.Y w.Z t.V1 t.V2 / (normal t).X)).X - w.X, ori w.Y w.Z t.V2 t.V3 / (normal t).X,
      ori w.Y w.Z t.V3 t.V1 / (normal t).X, ori w.Y w.Z t.V1 t.V2 / (normal t).X, by linarith, pos.1, pos.2.1, pos.2.2, sum, ?_⟩
  have put : ∀ v : Vec ℚ, v.Y = w.Y → v.Z = w.Z → (⟨w.X + (v.X - w.X), w.Y, w.Z⟩ : Vec ℚ) = v := by
    intro v h2 h3
    rw [← h2, ← h3]
    obtain ⟨x, y, z⟩ := v
    dsimp only
    rw [add_sub_cancel]
  exact put _ by' bz'

/-! ## Scaling and moving -/

/-- `v` scaled by `s` and moved by `τ`. -/
def aff (s : ℚ) (τ v : Vec ℚ) : Vec ℚ := ⟨v.X * s + τ.X, v.Y * s + τ.Y, v.Z * s + τ.Z⟩
def affT (s : ℚ) (τ : Vec ℚ) (t : Tri (Vec ℚ)) : Tri (Vec ℚ) := ⟨aff s τ t.V1, aff s τ t.V2, aff s τ t.V3⟩

theorem blend_aff {s : ℚ} {τ : Vec ℚ} {t : Tri (Vec ℚ)} {a c d : ℚ} (h : a + c + d = 1) :
    blend (affT s τ t) a c d = aff s τ (blend t a c d) := by
  have ha : a = 1 - c - d := by linarith
  unfold blend affT aff
  rw [ha]
  dsimp only
  rw [Vec.mk.injEq]
  refine ⟨?_, ?_, ?_⟩ <;> ring

theorem meets_aff {s : ℚ} (hs : 0 < s) {τ w : Vec ℚ} {t : Tri (Vec ℚ)} : RayMeets (aff s τ w) (affT s τ t) ↔ RayMeets w t := by
  have cancel : ∀ {x y u : ℚ}, x * s + u = y * s + u → x = y := fun h => mul_right_cancel₀ hs.ne' (by linarith)
  constructor
  · rintro ⟨r, a, c, d, hr, ha, hc, hd, h1, e⟩
    rw [blend_aff h1] at e
    refine ⟨r / s, a, c, d, by positivity, ha, hc, hd, h1, ?_⟩
    unfold aff at e
    injection e with e1 e2 e3
    show (⟨_, _, _⟩ : Vec ℚ) = ⟨_, _, _⟩
    rw [Vec.mk.injEq]
    refine ⟨cancel (u := τ.X) ?_, cancel e2, cancel e3⟩
    refine Eq.trans ?_ e1
    rw [add_mul, div_mul_cancel₀ _ hs.ne']
    dsimp only
    ring
  · rintro ⟨r, a, c, d, hr, ha, hc, hd, h1, e⟩
    refine ⟨r * s, a, c, d, by positivity, ha, hc, hd, h1, ?_⟩
    rw [blend_aff h1, ← e]
    unfold aff
    dsimp only
    rw [Vec.mk.injEq]
    exact ⟨by ring, rfl, rfl⟩

theorem hits_aff {s : ℚ} (hs : 0 < s) {τ w : Vec ℚ} {t : Tri (Vec ℚ)} : RayHits (aff s τ w) (affT s τ t) ↔ RayHits w t := by
  have cancel : ∀ {x y u : ℚ}, x * s + u = y * s + u → x = y := fun h => mul_right_cancel₀ hs.ne' (by linarith)
  constructor
  · rintro ⟨r, a, c, d, hr, ha, hc, hd, h1, e⟩
    rw [blend_aff h1] at e
    refine ⟨r / s, a, c, d, by positivity, ha, hc, hd, h1, ?_⟩
    unfold aff at e
    injection e with e1 e2 e3
    show (⟨_, _, _⟩ : Vec ℚ) = ⟨_, _, _⟩
    rw [Vec.mk.injEq]
    refine ⟨cancel (u := τ.X) ?_, cancel e2, cancel e3⟩
    refine Eq.trans ?_ e1
    rw [add_mul, div_mul_cancel₀ _ hs.ne']
    dsimp only
    ring
  · rintro ⟨r, a, c, d, hr, ha, hc, hd, h1, e⟩
    refine ⟨r * s, a, c, d, by positivity, ha, hc, hd, h1, ?_⟩
    rw [blend_aff h1, ← e]
    unfold aff
    dsimp only
    rw [Vec.mk.injEq]
    exact ⟨by ring, rfl, rfl⟩

theorem normal_aff {s : ℚ} {τ : Vec ℚ} {t : Tri (Vec ℚ)} : (normal (affT s τ t)).X = s ^ 2 * (normal t).X := by
  unfold normal vcross vsub affT aff
  dsimp only
  ring

/-! ## One cell -/

def keyQ (u : Key) : Vec ℚ := ⟨u.X, u.Y, u.Z⟩
def triQ (t : Tri Nat) : Tri (Vec ℚ) := ⟨keyQ (mid t.V1), keyQ (mid t.V2), keyQ (mid t.V3)⟩

/-- `(y, z)` is inside of the cone. -/
def InCone (c : Cone) (y z : ℚ) : Prop :=
  ∃ a β γ : ℚ, 0 < a ∧ 0 < β ∧ 0 < γ ∧ a + β + γ = 1 ∧
    6 * y = a * c.m0 + β * (c.m0 + c.sy * c.a) + γ * (c.m0 + c.sy * c.a') ∧
    6 * z = a * c.n0 + β * (c.n0 + c.sz * (6 - c.a)) + γ * (c.n0 + c.sz * (6 - c.a'))

theorem sgn3_pos {x y z : Int} (h : sgn3 x y z = 1) {a β γ : ℚ} (ha : 0 < a) (hb : 0 < β) (hg : 0 < γ) :
    0 < a * x + β * y + γ * z := by
  unfold sgn3 at h
  split at h
  · rename_i hh
    obtain ⟨h1, h2, h3, h4⟩ := hh
    have q1 : (0 : ℚ) ≤ x := by exact_mod_cast h1
    have q2 : (0 : ℚ) ≤ y := by exact_mod_cast h2
    have q3 : (0 : ℚ) ≤ z := by exact_mod_cast h3
    have p1 := mul_nonneg ha.le q1
    have p2 := mul_nonneg hb.le q2
    have p3 := mul_nonneg hg.le q3
    have : 0 < x ∨ 0 < y ∨ 0 < z := by omega
    rcases this with h | h | h
    · have := mul_pos ha (by exact_mod_cast h : (0 : ℚ) < x); linarith
    · have := mul_pos hb (by exact_mod_cast h : (0 : ℚ) < y); linarith
    · have := mul_pos hg (by exact_mod_cast h : (0 : ℚ) < z); linarith
  · split at h <;> omega

theorem sgn3_neg {x y z : Int} (h : sgn3 x y z = -1) {a β γ : ℚ} (ha : 0 < a) (hb : 0 < β) (hg : 0 < γ) :
    a * x + β * y + γ * z < 0 := by
  have h' : sgn3 (-x) (-y) (-z) = 1 := by
    unfold sgn3 at h ⊢
    split at h
    · omega
    · split at h
      · rename_i hh
        rw [if_pos (by omega)]
      · omega
  have := sgn3_pos h' ha hb hg
  push_cast at this
  linarith

theorem ori_cone {c : Cone} {y z a β γ : ℚ} (h1 : a + β + γ = 1)
    (hy : 6 * y = a * c.m0 + β * (c.m0 + c.sy * c.a) + γ * (c.m0 + c.sy * c.a'))
    (hz : 6 * z = a * c.n0 + β * (c.n0 + c.sz * (6 - c.a)) + γ * (c.n0 + c.sz * (6 - c.a'))) (A C : Key) :
    6 * ori y z (keyQ A) (keyQ C) = a * (oriI c.m0 c.n0 A C : Int) +
      β * (oriI (c.m0 + c.sy * c.a) (c.n0 + c.sz * (6 - c.a)) A C : Int) +
      γ * (oriI (c.m0 + c.sy * c.a') (c.n0 + c.sz * (6 - c.a')) A C : Int) := by
  have ha : a = 1 - β - γ := by linarith
  subst ha
  unfold ori oriI keyQ
  push_cast
  linear_combination ((A.Z : ℚ) - C.Z) * hy + ((C.Y : ℚ) - A.Y) * hz

theorem ori_pos {c : Cone} {y z : ℚ} (h : InCone c y z) {A C : Key} (hs : c.sgn A C = 1) : 0 < ori y z (keyQ A) (keyQ C) := by
  obtain ⟨a, β, γ, ha, hb, hg, h1, hy, hz⟩ := h
  have := ori_cone h1 hy hz A C
  have := sgn3_pos hs ha hb hg
  linarith

theorem ori_neg {c : Cone} {y z : ℚ} (h : InCone c y z) {A C : Key} (hs : c.sgn A C = -1) : ori y z (keyQ A) (keyQ C) < 0 := by
  obtain ⟨a, β, γ, ha, hb, hg, h1, hy, hz⟩ := h
  have := ori_cone h1 hy hz A C
  have := sgn3_neg hs ha hb hg
  linarith

theorem pos_at {c : Cone} {w : Vec ℚ} (h : InCone c w.Y w.Z) {t : Tri Nat} (hs : isPos (c.signs t) = true) : PosAt w (triQ t) := by
  unfold isPos Cone.signs at hs
  simp only [Bool.and_eq_true, decide_eq_true_eq] at hs
  exact ⟨ori_pos h hs.1.1, ori_pos h hs.1.2, ori_pos h hs.2⟩

theorem neg_at {c : Cone} {w : Vec ℚ} (h : InCone c w.Y w.Z) {t : Tri Nat} (hs : isNeg (c.signs t) = true) : NegAt w (triQ t) := by
  unfold isNeg Cone.signs at hs
  simp only [Bool.and_eq_true, decide_eq_true_eq] at hs
  exact ⟨ori_neg h hs.1.1, ori_neg h hs.1.2, ori_neg h hs.2⟩

theorem mixed_at {c : Cone} {w : Vec ℚ} (h : InCone c w.Y w.Z) {t : Tri Nat} (hs : isMixed (c.signs t) = true) : MixedAt w (triQ t) := by
  unfold isMixed Cone.signs at hs
  simp only [Bool.and_eq_true, Bool.or_eq_true, decide_eq_true_eq] at hs
  obtain ⟨h1, h2⟩ := hs
  constructor
  · rcases h1 with (h1 | h1) | h1
    · exact .inl (ori_pos h h1)
    · exact .inr (.inl (ori_pos h h1))
    · exact .inr (.inr (ori_pos h h1))
  · rcases h2 with (h1 | h1) | h1
    · exact .inl (ori_neg h h1)
    · exact .inr (.inl (ori_neg h h1))
    · exact .inr (.inr (ori_neg h h1))

/-! ## Where the triangles of a cell are -/

theorem cones_geo : ∀ c ∈ cones, c.lo < 8 ∧ c.hi < 8 ∧ (cornerOff c.lo).X = 0 ∧ cornerOff c.lo = (cornerOff c.hi).shift (-1) 0 0 ∧
    (c.sy = 1 ∧ (cornerOff c.lo).Y = -1 ∨ c.sy = -1 ∧ (cornerOff c.lo).Y = 0) ∧
    (c.sz = 1 ∧ (cornerOff c.lo).Z = 0 ∨ c.sz = -1 ∧ (cornerOff c.lo).Z = 1) ∧
    ∀ e ∈ List.range 12,
      1 ≤ (mid e).X + c.sy * ((mid e).Y - 2 * (cornerOff c.lo).Y) + c.sz * ((mid e).Z - 2 * (cornerOff c.lo).Z) ∧
      1 ≤ 2 - (mid e).X + c.sy * ((mid e).Y - 2 * (cornerOff c.lo).Y) + c.sz * ((mid e).Z - 2 * (cornerOff c.lo).Z) := by
  decide +kernel

theorem mid_box : ∀ e ∈ List.range 12, -2 ≤ (mid e).Y ∧ (mid e).Y ≤ 0 ∧ 0 ≤ (mid e).Z ∧ (mid e).Z ≤ 2 := by
  decide +kernel

def Edges (t : Tri Nat) : Prop := t.V1 < 12 ∧ t.V2 < 12 ∧ t.V3 < 12

theorem sym_edges {ci : Nat} (h : ci < 256) {t : Tri Nat} (ht : t ∈ symTris ci) : Edges t := by
  obtain ⟨h1, h2, h3, -⟩ := (triTable_edges ci (List.mem_range.mpr h)).1 t ht
  exact ⟨h1, h2, h3⟩

theorem bary_le {x y z a c d m : ℚ} (ha : 0 ≤ a) (hc : 0 ≤ c) (hd : 0 ≤ d) (h1 : a + c + d = 1)
    (hx : x ≤ m) (hy : y ≤ m) (hz : z ≤ m) : a * x + c * y + d * z ≤ m := by
  have e1 := mul_le_mul_of_nonneg_left hx ha
  have e2 := mul_le_mul_of_nonneg_left hy hc
  have e3 := mul_le_mul_of_nonneg_left hz hd
  have : a * m + c * m + d * m = m := by rw [← add_mul, ← add_mul, h1, one_mul]
  linarith

theorem le_bary {x y z a c d m : ℚ} (ha : 0 ≤ a) (hc : 0 ≤ c) (hd : 0 ≤ d) (h1 : a + c + d = 1)
    (hx : m ≤ x) (hy : m ≤ y) (hz : m ≤ z) : m ≤ a * x + c * y + d * z := by
  have := bary_le (x := -x) (y := -y) (z := -z) (m := -m) ha hc hd h1 (by linarith) (by linarith) (by linarith)
  linarith

/-- Rays beside the cell miss its triangles. -/
theorem beside {w : Vec ℚ} {t : Tri Nat} (ht : Edges t) (h : w.Y < -2 ∨ 0 < w.Y ∨ w.Z < 0 ∨ 2 < w.Z) :
    ¬ RayMeets w (triQ t) := by
  rintro ⟨s, a, c, d, -, ha, hc, hd, h1, e⟩
  unfold blend at e
  injection e with _ ey ez
  have box : ∀ n < 12, (-2 : ℚ) ≤ (keyQ (mid n)).Y ∧ (keyQ (mid n)).Y ≤ 0 ∧ 0 ≤ (keyQ (mid n)).Z ∧ (keyQ (mid n)).Z ≤ 2 := by
    intro n hn
    obtain ⟨b1, b2, b3, b4⟩ := mid_box n (List.mem_range.mpr hn)
    unfold keyQ
    dsimp only
    exact ⟨by exact_mod_cast b1, by exact_mod_cast b2, by exact_mod_cast b3, by exact_mod_cast b4⟩
  obtain ⟨p1, p2, p3, p4⟩ := box _ ht.1
  obtain ⟨q1, q2, q3, q4⟩ := box _ ht.2.1
  obtain ⟨r1, r2, r3, r4⟩ := box _ ht.2.2
  rcases h with h | h | h | h
  · exact absurd (Eq.subst (motive := fun x => -2 ≤ x) ey.symm (le_bary ha hc hd h1 p1 q1 r1)) (by linarith)
  · exact absurd (Eq.subst (motive := fun x => x ≤ 0) ey.symm (bary_le ha hc hd h1 p2 q2 r2)) (by linarith)
  · exact absurd (Eq.subst (motive := fun x => 0 ≤ x) ez.symm (le_bary ha hc hd h1 p3 q3 r3)) (by linarith)
  · exact absurd (Eq.subst (motive := fun x => x ≤ 2) ez.symm (bary_le ha hc hd h1 p4 q4 r4)) (by linarith)

/-- The triangles of a cell seen from the neighbourhood of the line through its edge. -/
theorem blend_x {c : Cone} (hc : c ∈ cones) {t : Tri Nat} (ht : Edges t) {a β γ : ℚ} (ha : 0 ≤ a) (hb : 0 ≤ β) (hg : 0 ≤ γ)
    (h1 : a + β + γ = 1) :
    1 ≤ (blend (triQ t) a β γ).X + c.sy * ((blend (triQ t) a β γ).Y - 2 * (cornerOff c.lo).Y) +
        c.sz * ((blend (triQ t) a β γ).Z - 2 * (cornerOff c.lo).Z) ∧
    1 ≤ 2 - (blend (triQ t) a β γ).X + c.sy * ((blend (triQ t) a β γ).Y - 2 * (cornerOff c.lo).Y) +
        c.sz * ((blend (triQ t) a β γ).Z - 2 * (cornerOff c.lo).Z) := by
  obtain ⟨-, -, -, -, -, -, g⟩ := cones_geo c hc
  have q : ∀ n < 12, (1 : ℚ) ≤ (keyQ (mid n)).X + c.sy * ((keyQ (mid n)).Y - 2 * (cornerOff c.lo).Y) +
        c.sz * ((keyQ (mid n)).Z - 2 * (cornerOff c.lo).Z) ∧
      (1 : ℚ) ≤ 2 - (keyQ (mid n)).X + c.sy * ((keyQ (mid n)).Y - 2 * (cornerOff c.lo).Y) +
        c.sz * ((keyQ (mid n)).Z - 2 * (cornerOff c.lo).Z) := by
    intro n hn
    obtain ⟨g1, g2⟩ := g n (List.mem_range.mpr hn)
    exact ⟨by unfold keyQ; dsimp only; exact_mod_cast g1, by unfold keyQ; dsimp only; exact_mod_cast g2⟩
  obtain ⟨p1, p2⟩ := q _ ht.1
  obtain ⟨q1, q2⟩ := q _ ht.2.1
  obtain ⟨r1, r2⟩ := q _ ht.2.2
  have b1 := le_bary ha hb hg h1 p1 q1 r1
  have b2 := le_bary ha hb hg h1 p2 q2 r2
  have ha' : a = 1 - β - γ := by linarith
  subst ha'
  unfold blend triQ
  dsimp only
  constructor
  · refine le_trans b1 (le_of_eq ?_)
    ring
  · refine le_trans b2 (le_of_eq ?_)
    ring

/-! ## The cone of a point -/

/-- The offset `(dy, dz)` from the edge lies inside of the cone, and the whole offset is short. -/
structure Seen (c : Cone) (dx dy dz : ℚ) : Prop where
  mem : c ∈ cones
  inside : ∃ β γ : ℚ, 0 < β ∧ 0 < γ ∧ β + γ < 1 ∧ 6 * dy = c.sy * (β * c.a + γ * c.a') ∧
    6 * dz = c.sz * (β * (6 - c.a) + γ * (6 - c.a'))
  py : 0 < c.sy * dy
  pz : 0 < c.sz * dz
  near : |dx| + c.sy * dy + c.sz * dz < 1

theorem Seen.inCone {c : Cone} {dx dy dz : ℚ} (h : Seen c dx dy dz) :
    InCone c (2 * (cornerOff c.lo).Y + dy) (2 * (cornerOff c.lo).Z + dz) := by
  obtain ⟨β, γ, hb, hg, h1, ey, ez⟩ := h.inside
  refine ⟨1 - β - γ, β, γ, by linarith, hb, hg, by ring, ?_, ?_⟩
  · unfold Cone.m0
    push_cast
    linear_combination ey
  · unfold Cone.n0
    push_cast
    linear_combination ez

theorem seen_of {dx u v sy sz : ℚ} {q : Nat × Nat × Int × Int} {a a' : Int}
    (hq : q ∈ [(3, 2, (1 : Int), (1 : Int)), (0, 1, -1, 1), (7, 6, 1, -1), (4, 5, -1, -1)])
    (hs : (a, a') ∈ [((6 : Int), (4 : Int)), (4, 3), (3, 2), (2, 0)])
    (ey : (q.2.2.1 : ℚ) = sy) (ez : (q.2.2.2 : ℚ) = sz) (hy : sy * sy = 1) (hz : sz * sz = 1)
    (hu : 0 < u) (hv : 0 < v) (hn : |dx| + u + v < 1) (lt : (a' : ℚ) < a) (l1 : a' * (u + v) < 6 * u) (l2 : 6 * u < a * (u + v)) :
    ∃ c, Seen c dx (sy * u) (sz * v) := by
  have d0 : (0 : ℚ) < a - a' := by linarith
  have hdx := abs_nonneg dx
  refine ⟨⟨q.1, q.2.1, q.2.2.1, q.2.2.2, a, a'⟩, ⟨List.mem_flatMap.mpr ⟨q, hq, List.mem_map.mpr ⟨(a, a'), hs, rfl⟩⟩,
    ⟨(6 * u - a' * (u + v)) / (a - a'), (a * (u + v) - 6 * u) / (a - a'), div_pos (by linarith) d0, div_pos (by linarith) d0,
      ?_, ?_, ?_⟩, ?_, ?_, ?_⟩⟩
  · rw [← add_div, div_lt_one d0]
    have : 6 * u - a' * (u + v) + (a * (u + v) - 6 * u) = (a - a') * (u + v) := by ring
    rw [this]
    calc ((a : ℚ) - a') * (u + v) < (a - a') * 1 := mul_lt_mul_of_pos_left (by linarith) d0
      _ = _ := mul_one _
  · dsimp only
    rw [ey]
    field_simp
    ring
  · dsimp only
    rw [ez]
    field_simp
    ring
  · dsimp only
    rw [ey, ← mul_assoc, hy, one_mul]
    exact hu
  · dsimp only
    rw [ez, ← mul_assoc, hz, one_mul]
    exact hv
  · dsimp only
    rw [ey, ez, ← mul_assoc, hy, ← mul_assoc, hz, one_mul, one_mul]
    exact hn

theorem seen_exists {dx dy dz : ℚ} (hn : |dx| + |dy| + |dz| < 1) (y0 : dy ≠ 0) (z0 : dz ≠ 0) (s1 : |dy| ≠ |dz|)
    (s2 : |dy| ≠ 2 * |dz|) (s3 : 2 * |dy| ≠ |dz|) : ∃ c, Seen c dx dy dz := by
  have slope : ∃ a a' : Int, (a, a') ∈ [((6 : Int), (4 : Int)), (4, 3), (3, 2), (2, 0)] ∧ (a' : ℚ) < a ∧
      a' * (|dy| + |dz|) < 6 * |dy| ∧ 6 * |dy| < a * (|dy| + |dz|) := by
    have u0 := abs_pos.mpr y0
    have v0 := abs_pos.mpr z0
    rcases lt_or_gt_of_ne s2 with h2 | h2
    · rcases lt_or_gt_of_ne s1 with h1 | h1
      · rcases lt_or_gt_of_ne s3 with h3 | h3
        · exact ⟨2, 0, by decide, by norm_num, by push_cast; linarith, by push_cast; linarith⟩
        · exact ⟨3, 2, by decide, by norm_num, by push_cast; linarith, by push_cast; linarith⟩
      · exact ⟨4, 3, by decide, by norm_num, by push_cast; linarith, by push_cast; linarith⟩
    · exact ⟨6, 4, by decide, by norm_num, by push_cast; linarith, by push_cast; linarith⟩
  obtain ⟨a, a', hs, lt, l1, l2⟩ := slope
  have u0 := abs_pos.mpr y0
  have v0 := abs_pos.mpr z0
  rcases lt_or_gt_of_ne y0 with hy | hy <;> rcases lt_or_gt_of_ne z0 with hz | hz
  · obtain ⟨c, h⟩ := seen_of (dx := dx) (sy := -1) (sz := -1) (q := (4, 5, -1, -1)) (by decide) hs (by norm_num) (by norm_num)
      (by norm_num) (by norm_num) u0 v0 hn lt l1 l2
    rw [abs_of_neg hy, abs_of_neg hz, neg_one_mul, neg_one_mul, neg_neg, neg_neg] at h
    exact ⟨c, h⟩
  · obtain ⟨c, h⟩ := seen_of (dx := dx) (sy := -1) (sz := 1) (q := (0, 1, -1, 1)) (by decide) hs (by norm_num) (by norm_num)
      (by norm_num) (by norm_num) u0 v0 hn lt l1 l2
    rw [abs_of_neg hy, abs_of_pos hz, neg_one_mul, neg_neg, one_mul] at h
    exact ⟨c, h⟩
  · obtain ⟨c, h⟩ := seen_of (dx := dx) (sy := 1) (sz := -1) (q := (7, 6, 1, -1)) (by decide) hs (by norm_num) (by norm_num)
      (by norm_num) (by norm_num) u0 v0 hn lt l1 l2
    rw [abs_of_pos hy, abs_of_neg hz, neg_one_mul, neg_neg, one_mul] at h
    exact ⟨c, h⟩
  · obtain ⟨c, h⟩ := seen_of (dx := dx) (sy := 1) (sz := 1) (q := (3, 2, 1, 1)) (by decide) hs (by norm_num) (by norm_num)
      (by norm_num) (by norm_num) u0 v0 hn lt l1 l2
    rw [abs_of_pos hy, abs_of_pos hz, one_mul, one_mul] at h
    exact ⟨c, h⟩

/-! ## One cell against the ray -/

/-- The position of the point relative to the cell at `k'`, in halves of a voxel. -/
def rel (k k' : Key) (dx dy dz : ℚ) : Vec ℚ :=
  ⟨2 * ((k.X : ℚ) - k'.X) + dx, 2 * ((k.Y : ℚ) - k'.Y) + dy, 2 * ((k.Z : ℚ) - k'.Z) + dz⟩

/-- The corner `lo` of the cell at `k'` is on the line of voxels of `k`. -/
def InLine (lo : Nat) (k k' : Key) : Prop := (corner k' lo).Y = k.Y ∧ (corner k' lo).Z = k.Z

instance (lo : Nat) (k k' : Key) : Decidable (InLine lo k k') := instDecidableAnd

variable {c : Cone} {k k' : Key} {dx dy dz : ℚ}

theorem rel_line (hl : InLine c.lo k k') : (rel k k' dx dy dz).Y = 2 * (cornerOff c.lo).Y + dy ∧
    (rel k k' dx dy dz).Z = 2 * (cornerOff c.lo).Z + dz := by
  obtain ⟨h1, h2⟩ := hl
  unfold corner Key.shift at h1 h2
  dsimp only at h1 h2
  unfold rel
  rw [← h1, ← h2]
  push_cast
  constructor <;> ring

/-- Cells beside the line are missed. -/
theorem off_line (hs : Seen c dx dy dz) (hl : ¬ InLine c.lo k k') {t : Tri Nat} (ht : Edges t) :
    ¬ RayMeets (rel k k' dx dy dz) (triQ t) := by
  apply beside ht
  obtain ⟨-, -, -, -, gy, gz, -⟩ := cones_geo c hs.mem
  have py := hs.py
  have pz := hs.pz
  have near := hs.near
  have := abs_nonneg dx
  have hl' : (corner k' c.lo).Y ≠ k.Y ∨ (corner k' c.lo).Z ≠ k.Z := by
    unfold InLine at hl
    tauto
  unfold corner Key.shift at hl'
  dsimp only at hl'
  unfold rel
  dsimp only
  rcases hl' with h | h
  · rcases gy with ⟨s, o⟩ | ⟨s, o⟩
    · rw [s] at py near
      rw [o] at h
      push_cast at py near
      rcases lt_or_gt_of_ne h with h | h
      · have : k'.Y ≤ k.Y := by omega
        have : (k'.Y : ℚ) ≤ k.Y := by exact_mod_cast this
        exact .inr (.inl (by linarith))
      · have : k.Y + 2 ≤ k'.Y := by omega
        have : (k.Y : ℚ) + 2 ≤ k'.Y := by exact_mod_cast this
        exact .inl (by linarith)
    · rw [s] at py near
      rw [o] at h
      push_cast at py near
      rcases lt_or_gt_of_ne h with h | h
      · have : k'.Y + 1 ≤ k.Y := by omega
        have : (k'.Y : ℚ) + 1 ≤ k.Y := by exact_mod_cast this
        exact .inr (.inl (by linarith))
      · have : k.Y + 1 ≤ k'.Y := by omega
        have : (k.Y : ℚ) + 1 ≤ k'.Y := by exact_mod_cast this
        exact .inl (by linarith)
  · rcases gz with ⟨s, o⟩ | ⟨s, o⟩
    · rw [s] at pz near
      rw [o] at h
      push_cast at pz near
      rcases lt_or_gt_of_ne h with h | h
      · have : k'.Z + 1 ≤ k.Z := by omega
        have : (k'.Z : ℚ) + 1 ≤ k.Z := by exact_mod_cast this
        exact .inr (.inr (.inr (by linarith)))
      · have : k.Z + 1 ≤ k'.Z := by omega
        have : (k.Z : ℚ) + 1 ≤ k'.Z := by exact_mod_cast this
        exact .inr (.inr (.inl (by linarith)))
    · rw [s] at pz near
      rw [o] at h
      push_cast at pz near
      rcases lt_or_gt_of_ne h with h | h
      · have : k'.Z + 2 ≤ k.Z := by omega
        have : (k'.Z : ℚ) + 2 ≤ k.Z := by exact_mod_cast this
        exact .inr (.inr (.inr (by linarith)))
      · have : k.Z ≤ k'.Z := by omega
        have : (k.Z : ℚ) ≤ k'.Z := by exact_mod_cast this
        exact .inr (.inr (.inl (by linarith)))

/-- Cells on the line before the point are missed. -/
theorem behind (hs : Seen c dx dy dz) (hl : InLine c.lo k k') (hx : k'.X < k.X) {t : Tri Nat} (ht : Edges t) :
    ¬ RayMeets (rel k k' dx dy dz) (triQ t) := by
  rintro ⟨s, a, β, γ, hs0, ha, hb, hg, h1, e⟩
  obtain ⟨-, b2⟩ := blend_x hs.mem ht ha hb hg h1
  rw [← e] at b2
  dsimp only at b2
  obtain ⟨ry, rz⟩ := rel_line (dx := dx) (dy := dy) (dz := dz) hl
  rw [ry, rz] at b2
  have near := hs.near
  have := neg_abs_le dx
  have hx' : (k'.X : ℚ) + 1 ≤ k.X := by exact_mod_cast hx
  have : (rel k k' dx dy dz).X = 2 * ((k.X : ℚ) - k'.X) + dx := rfl
  rw [this, add_sub_cancel_left, add_sub_cancel_left] at b2
  linarith

/-- The triangles of cells on the line from the point on are left of nothing: the ray starts before them. -/
theorem ahead (hs : Seen c dx dy dz) (hl : InLine c.lo k k') (hx : k.X ≤ k'.X) {t : Tri Nat} (ht : Edges t)
    (h : PosAt (rel k k' dx dy dz) (triQ t) ∨ NegAt (rel k k' dx dy dz) (triQ t)) : RayHits (rel k k' dx dy dz) (triQ t) := by
  refine hits_of h fun a β γ ha hb hg h1 ey ez => ?_
  obtain ⟨b1, -⟩ := blend_x hs.mem ht ha.le hb.le hg.le h1
  obtain ⟨ry, rz⟩ := rel_line (dx := dx) (dy := dy) (dz := dz) hl
  rw [ey, ez, ry, rz, add_sub_cancel_left, add_sub_cancel_left] at b1
  have near := hs.near
  have := le_abs_self dx
  have hx' : (k.X : ℚ) ≤ k'.X := by exact_mod_cast hx
  show 2 * ((k.X : ℚ) - k'.X) + dx < _
  linarith

/-! ## Counting -/

open Classical in
/-- What a triangle contributes to the winding number. -/
noncomputable def wt (p : Vec ℚ) (t : Tri (Vec ℚ)) : Int :=
  if RayHits p t ∧ 0 < (normal t).X then 1 else if RayHits p t ∧ (normal t).X < 0 then -1 else 0

theorem winding_sum (p : Vec ℚ) (ts : List (Tri (Vec ℚ))) : winding p ts = (ts.map (wt p)).sum := by
  classical
  induction ts with
  | nil => rfl
  | cons t ts ih =>
    rw [List.map_cons, List.sum_cons, ← ih]
    unfold winding wt
    rw [List.filter_cons, List.filter_cons]
    by_cases h1 : RayHits p t ∧ 0 < (normal t).X
    · have h2 : ¬ (RayHits p t ∧ (normal t).X < 0) := fun h => absurd h1.2 (by have := h.2; linarith)
      rw [if_pos (by simpa using h1), if_neg (by simpa using h2), if_pos h1, List.length_cons]
      push_cast
      ring
    · by_cases h2 : RayHits p t ∧ (normal t).X < 0
      · rw [if_neg (by simpa using h1), if_pos (by simpa using h2), if_neg h1, if_pos h2, List.length_cons]
        push_cast
        ring
      · rw [if_neg (by simpa using h1), if_neg (by simpa using h2), if_neg h1, if_neg h2, zero_add]

theorem wt_aff {s : ℚ} (hs : 0 < s) {τ w : Vec ℚ} {t : Tri (Vec ℚ)} : wt (aff s τ w) (affT s τ t) = wt w t := by
  classical
  unfold wt
  have h2 : (0 : ℚ) < s ^ 2 := by positivity
  have p1 : (0 < (normal (affT s τ t)).X) = (0 < (normal t).X) := by
    rw [normal_aff]
    exact propext (mul_pos_iff_of_pos_left h2)
  have p2 : ((normal (affT s τ t)).X < 0) = ((normal t).X < 0) := by
    rw [normal_aff]
    refine propext ⟨fun h => ?_, fun h => mul_neg_of_pos_of_neg h2 h⟩
    by_contra hh
    have := mul_nonneg h2.le (not_lt.mp hh)
    linarith
  rw [hits_aff hs]
  simp only [p1, p2]

theorem wt_missed {w : Vec ℚ} {t : Tri (Vec ℚ)} (h : ¬ RayMeets w t) : wt w t = 0 := by
  unfold wt
  rw [if_neg fun hh => h (hits_meets hh.1), if_neg fun hh => h (hits_meets hh.1)]

theorem normal_pos {w : Vec ℚ} {t : Tri (Vec ℚ)} (h : PosAt w t) : 0 < (normal t).X := by
  rw [normal_x t w.Y w.Z]
  obtain ⟨h1, h2, h3⟩ := h
  linarith

theorem normal_neg {w : Vec ℚ} {t : Tri (Vec ℚ)} (h : NegAt w t) : (normal t).X < 0 := by
  rw [normal_x t w.Y w.Z]
  obtain ⟨h1, h2, h3⟩ := h
  linarith

theorem wt_ahead (hs : Seen c dx dy dz) (hl : InLine c.lo k k') (hx : k.X ≤ k'.X) {t : Tri Nat} (ht : Edges t)
    (h : isPos (c.signs t) = true ∨ isNeg (c.signs t) = true ∨ isMixed (c.signs t) = true) :
    (RayMeets (rel k k' dx dy dz) (triQ t) → RayHits (rel k k' dx dy dz) (triQ t) ∧ (normal (triQ t)).X ≠ 0) ∧
    wt (rel k k' dx dy dz) (triQ t) = (if isPos (c.signs t) then 1 else 0) - (if isNeg (c.signs t) then 1 else 0) := by
  obtain ⟨ry, rz⟩ := rel_line (dx := dx) (dy := dy) (dz := dz) hl
  have hc : InCone c (rel k k' dx dy dz).Y (rel k k' dx dy dz).Z := by
    rw [ry, rz]
    exact hs.inCone
  by_cases hp : isPos (c.signs t) = true
  · have hp' := pos_at hc hp
    have hit := ahead hs hl hx ht (.inl hp')
    have n := normal_pos hp'
    have hn : ¬ isNeg (c.signs t) = true := fun h => absurd (normal_neg (neg_at hc h)) (by linarith)
    refine ⟨fun _ => ⟨hit, n.ne'⟩, ?_⟩
    unfold wt
    rw [if_pos ⟨hit, n⟩, if_pos hp, if_neg hn, sub_zero]
  · by_cases hn : isNeg (c.signs t) = true
    · have hn' := neg_at hc hn
      have hit := ahead hs hl hx ht (.inr hn')
      have n := normal_neg hn'
      refine ⟨fun _ => ⟨hit, n.ne⟩, ?_⟩
      unfold wt
      rw [if_neg fun h => absurd h.2 (by linarith), if_pos ⟨hit, n⟩, if_neg hp, if_pos hn, zero_sub]
    · have hm : isMixed (c.signs t) = true := by tauto
      have := mixed_missed (mixed_at hc hm)
      refine ⟨fun h => absurd h this, ?_⟩
      rw [wt_missed this, if_neg hp, if_neg hn, sub_zero]

theorem sum_count {α : Type} (l : List α) (f g : α → Bool) :
    (l.map fun t => ((if f t then 1 else 0) - (if g t then 1 else 0) : Int)).sum = (l.countP f : Int) - (l.countP g : Nat) := by
  induction l with
  | nil => rfl
  | cons t l ih =>
    rw [List.map_cons, List.sum_cons, ih, List.countP_cons, List.countP_cons]
    push_cast
    ring

/-- A cell's part of the winding number. -/
theorem cell_part (hs : Seen c dx dy dz) (pr : Key → Bool) :
    (∀ t ∈ symTris (idx pr k'), RayMeets (rel k k' dx dy dz) (triQ t) →
      RayHits (rel k k' dx dy dz) (triQ t) ∧ (normal (triQ t)).X ≠ 0) ∧
    ((symTris (idx pr k')).map fun t => wt (rel k k' dx dy dz) (triQ t)).sum =
      if InLine c.lo k k' ∧ k.X ≤ k'.X then
        (if pr (corner k' c.lo) then 1 else 0) - (if pr (corner k' c.hi) then 1 else 0) else 0 := by
  have zero : (∀ t ∈ symTris (idx pr k'), ¬ RayMeets (rel k k' dx dy dz) (triQ t)) →
      ((symTris (idx pr k')).map fun t => wt (rel k k' dx dy dz) (triQ t)).sum = 0 := by
    intro h
    apply List.sum_eq_zero
    intro x hx
    obtain ⟨t, ht, rfl⟩ := List.mem_map.mp hx
    exact wt_missed (h t ht)
  by_cases hl : InLine c.lo k k'
  · by_cases hx : k.X ≤ k'.X
    · have ok := cones_ok c hs.mem (idx pr k') (List.mem_range.mpr (idx_lt pr k'))
      unfold coneOK at ok
      rw [Bool.and_eq_true, List.all_eq_true] at ok
      have each : ∀ t ∈ symTris (idx pr k'), isPos (c.signs t) = true ∨ isNeg (c.signs t) = true ∨ isMixed (c.signs t) = true := by
        intro t ht
        have := ok.1 t ht
        simp only [Bool.or_eq_true] at this
        tauto
      refine ⟨fun t ht => (wt_ahead hs hl hx (sym_edges (idx_lt _ _) ht) (each t ht)).1, ?_⟩
      rw [List.map_congr_left fun t ht => (wt_ahead hs hl hx (sym_edges (idx_lt _ _) ht) (each t ht)).2, sum_count,
        of_decide_eq_true ok.2, if_pos (show InLine c.lo k k' ∧ k.X ≤ k'.X from ⟨hl, hx⟩)]
      obtain ⟨l8, h8, -⟩ := cones_geo c hs.mem
      rw [idx_bit _ _ l8, idx_bit _ _ h8]
      cases pr (corner k' c.lo) <;> cases pr (corner k' c.hi) <;> rfl
    · have miss : ∀ t ∈ symTris (idx pr k'), ¬ RayMeets (rel k k' dx dy dz) (triQ t) :=
        fun t ht => behind hs hl (not_le.mp hx) (sym_edges (idx_lt _ _) ht)
      exact ⟨fun t ht h => absurd h (miss t ht), by rw [zero miss, if_neg fun h => hx h.2]⟩
  · have miss : ∀ t ∈ symTris (idx pr k'), ¬ RayMeets (rel k k' dx dy dz) (triQ t) :=
      fun t ht => off_line hs hl (sym_edges (idx_lt _ _) ht)
    exact ⟨fun t ht h => absurd h (miss t ht), by rw [zero miss, if_neg fun h => hl h.1]⟩

/-- The parts of all cells. -/
theorem parts_sum {lo hi : Nat} (l8 : lo < 8) (h8 : hi < 8) (hx0 : (cornerOff lo).X = 0)
    (hoff : cornerOff lo = (cornerOff hi).shift (-1) 0 0) (pr : Key → Bool) (k : Key) (ord : List Key) (hnd : ord.Nodup)
    (hmem : ∀ k, (∃ i < 8, pr (corner k i) = true) → k ∈ ord) :
    (ord.map fun k' => if InLine lo k k' ∧ k.X ≤ k'.X then
        ((if pr (corner k' lo) then 1 else 0) - (if pr (corner k' hi) then 1 else 0) : Int) else 0).sum =
      if pr k then 1 else 0 := by
  have next : ∀ k' : Key, corner (k'.shift 1 0 0) lo = corner k' hi := fun k' =>
    corner_shift k' ⟨1, 0, 0⟩ lo hi (by rw [hoff]; rfl)
  have lineNext : ∀ k' : Key, InLine lo k (k'.shift 1 0 0) ↔ InLine lo k k' := by
    intro k'
    unfold InLine corner Key.shift
    dsimp only
    rw [add_zero, add_zero]
  obtain ⟨kc, hkc⟩ : ∃ kc : Key, corner kc lo = k := by
    refine ⟨k.shift (-(cornerOff lo).X) (-(cornerOff lo).Y) (-(cornerOff lo).Z), ?_⟩
    unfold corner Key.shift
    dsimp only
    rw [neg_add_cancel_right, neg_add_cancel_right, neg_add_cancel_right]
  have cx : ∀ k' : Key, (corner k' lo).X = k'.X := fun k' => by
    unfold corner Key.shift
    rw [hx0, add_zero]
  have lineC : InLine lo k kc := ⟨by rw [hkc], by rw [hkc]⟩
  have kcx : kc.X = k.X := by rw [← cx, hkc]
  have only : ∀ k' : Key, InLine lo k k' → k'.X = k.X → k' = kc := by
    intro k' ⟨hy, hz⟩ hx
    have e : corner k' lo = corner kc lo := by
      rw [hkc]
      have := cx k'
      obtain ⟨x, y, z⟩ := k
      rw [Key.mk.injEq]
      exact ⟨by rw [this, hx], hy, hz⟩
    unfold corner Key.shift at e
    obtain ⟨x, y, z⟩ := k'
    obtain ⟨x', y', z'⟩ := kc
    dsimp only at e
    rw [Key.mk.injEq] at e ⊢
    omega
  rw [← List.sum_toFinset _ hnd]
  have hterm : ∀ k' : Key, (if InLine lo k k' ∧ k.X ≤ k'.X then
        ((if pr (corner k' lo) then 1 else 0) - (if pr (corner k' hi) then 1 else 0) : Int) else 0) =
      ((fun k' : Key => if InLine lo k k' ∧ k.X ≤ k'.X then (if pr (corner k' lo) then 1 else 0 : Int) else 0) k' -
        (fun k' : Key => if InLine lo k k' ∧ k.X ≤ k'.X then (if pr (corner k' lo) then 1 else 0 : Int) else 0) (k'.shift 1 0 0)) +
      if k' = kc.shift (-1) 0 0 then (if pr k then 1 else 0 : Int) else 0 := by
    intro k'
    dsimp only
    rw [next]
    simp only [lineNext]
    have sx : (k'.shift 1 0 0).X = k'.X + 1 := rfl
    rw [sx]
    by_cases h : InLine lo k k' ∧ k.X ≤ k'.X
    · have n : k' ≠ kc.shift (-1) 0 0 := by
        rintro rfl
        have := h.2
        have e : (kc.shift (-1) 0 0).X = kc.X + -1 := rfl
        rw [e, kcx] at this
        omega
      rw [if_pos h, if_pos h, if_pos (show InLine lo k k' ∧ k.X ≤ k'.X + 1 from ⟨h.1, by have := h.2; omega⟩), if_neg n, add_zero]
    · rw [if_neg h, if_neg h]
      by_cases hk : k' = kc.shift (-1) 0 0
      · have back : kc = k'.shift 1 0 0 := by
          rw [hk]
          unfold Key.shift
          dsimp only
          rw [neg_add_cancel_right, add_zero, add_zero, add_zero, add_zero]
        have l' : InLine lo k k' := by
          rw [← lineNext, ← back]
          exact lineC
        have e : k'.X + 1 = k.X := by rw [← sx, ← back, kcx]
        rw [if_pos (show InLine lo k k' ∧ k.X ≤ k'.X + 1 from ⟨l', by omega⟩), if_pos hk, ← next, ← back, hkc]
        ring
      · rw [if_neg hk]
        have h' : ¬ (InLine lo k k' ∧ k.X ≤ k'.X + 1) := by
          rintro ⟨l', hx⟩
          apply hk
          have hx' : ¬ k.X ≤ k'.X := fun hh => h ⟨l', hh⟩
          have := only (k'.shift 1 0 0) ((lineNext k').mpr l') (by rw [sx]; omega)
          rw [← this]
          unfold Key.shift
          dsimp only
          rw [add_neg_cancel_right, add_zero, add_zero, add_zero, add_zero]
        rw [if_neg h']
        rfl
  rw [Finset.sum_congr rfl (fun k' _ => hterm k'), Finset.sum_add_distrib]
  have t0 := telescope ord.toFinset ⟨1, 0, 0⟩
    (fun k' : Key => if InLine lo k k' ∧ k.X ≤ k'.X then (if pr (corner k' lo) then 1 else 0 : Int) else 0) (by
      intro k' hk'
      have hp : pr (corner k' lo) = true := by
        by_contra hn
        rw [if_neg hn] at hk'
        simp at hk'
      refine ⟨List.mem_toFinset.mpr (hmem _ ⟨_, l8, hp⟩), List.mem_toFinset.mpr (hmem _ ⟨hi, h8, ?_⟩)⟩
      rw [← next]
      have : (k'.shift (-1) (-0) (-0)).shift 1 0 0 = k' := by
        unfold Key.shift
        dsimp only
        rw [neg_add_cancel_right, neg_zero, add_zero, add_zero, add_zero, add_zero]
      rw [this]
      exact hp)
  rw [t0, zero_add, Finset.sum_ite_eq']
  by_cases hp : pr k = true
  · rw [if_pos hp, if_pos]
    refine List.mem_toFinset.mpr (hmem _ ⟨hi, h8, ?_⟩)
    rw [← next]
    have : (kc.shift (-1) 0 0).shift 1 0 0 = kc := by
      unfold Key.shift
      dsimp only
      rw [neg_add_cancel_right, add_zero, add_zero, add_zero, add_zero]
    rw [this, hkc]
    exact hp
  · rw [if_neg hp]
    exact ite_self _

/-! ## The whole surface -/

/-- Relative positions and points of space. -/
theorem lattice_aff (b : BinVOX ℚ) (k' : Key) (t : Tri Nat) :
    (⟨latticePoint b (gmid k' t.V1), latticePoint b (gmid k' t.V2), latticePoint b (gmid k' t.V3)⟩ : Tri (Vec ℚ)) =
      affT (1 / (2 * b.VoxelsPerMM)) (centre b k') (triQ t) := by
  have one : ∀ e, latticePoint b (gmid k' e) = aff (1 / (2 * b.VoxelsPerMM)) (centre b k') (keyQ (mid e)) := by
    intro e
    unfold latticePoint gmid aff centre keyQ Key.shift
    dsimp only
    push_cast
    rw [Vec.mk.injEq]
    refine ⟨?_, ?_, ?_⟩ <;> field_simp <;> ring
  rw [one, one, one]
  rfl

theorem point_aff {b : BinVOX ℚ} (hv : 0 < b.VoxelsPerMM) (k k' : Key) (p : Vec ℚ) :
    p = aff (1 / (2 * b.VoxelsPerMM)) (centre b k') (rel k k' (2 * b.VoxelsPerMM * (p.X - (centre b k).X))
      (2 * b.VoxelsPerMM * (p.Y - (centre b k).Y)) (2 * b.VoxelsPerMM * (p.Z - (centre b k).Z))) := by
  obtain ⟨x, y, z⟩ := p
  unfold aff rel centre
  dsimp only
  rw [Vec.mk.injEq]
  refine ⟨?_, ?_, ?_⟩ <;> field_simp <;> ring

/-- **C107.** Around a point near the centre of a voxel the surface winds once if the voxel is present and not at all if it
    is not. -/
theorem marching_inside {b : BinVOX ℚ} (hv : 0 < b.VoxelsPerMM) {tris : List (Tri (Vec ℚ))} (h : MarchingRun b tris)
    {k : Key} {p : Vec ℚ} (hn : NearCentre b k p) (ho : OffCentre b k p) :
    ClearRay p tris ∧ (Present b k → winding p tris = 1) ∧ (¬ Present b k → winding p tris = 0) := by
  classical
  obtain ⟨wo, co, ord, hw, hc, hord, rfl⟩ := h
  obtain ⟨c, hs⟩ : ∃ c, Seen c (2 * b.VoxelsPerMM * (p.X - (centre b k).X))
      (2 * b.VoxelsPerMM * (p.Y - (centre b k).Y)) (2 * b.VoxelsPerMM * (p.Z - (centre b k).Z)) := by
    have v2 : (0 : ℚ) < 2 * b.VoxelsPerMM := by linarith
    obtain ⟨o1, o2, o3, o4, o5⟩ := ho
    have ab : ∀ x : ℚ, |2 * b.VoxelsPerMM * x| = 2 * b.VoxelsPerMM * |x| := fun x => by rw [abs_mul, abs_of_pos v2]
    apply seen_exists
    · rw [ab, ab, ab, ← mul_add, ← mul_add]
      unfold NearCentre at hn
      rw [lt_div_iff₀ v2] at hn
      linarith
    · exact mul_ne_zero v2.ne' (sub_ne_zero.mpr o1)
    · exact mul_ne_zero v2.ne' (sub_ne_zero.mpr o2)
    · rw [ab, ab]
      exact fun h => o3 (mul_left_cancel₀ v2.ne' h)
    · rw [ab, ab]
      exact fun h => o4 (mul_left_cancel₀ v2.ne' (by linarith))
    · rw [ab, ab]
      exact fun h => o5 (mul_left_cancel₀ v2.ne' (by linarith))
  have s0 : (0 : ℚ) < 1 / (2 * b.VoxelsPerMM) := by positivity
  have tri : ∀ k', polygonize (cell b (lookupOf (wo ++ co)) k') =
      (symTris (idx (fun v => decide (v ∈ wo ++ co)) k')).map fun t =>
        affT (1 / (2 * b.VoxelsPerMM)) (centre b k') (triQ t) := by
    intro k'
    rw [polygonize_rat]
    exact List.map_congr_left fun t _ => lattice_aff b k' t
  constructor
  · intro t ht hm
    obtain ⟨k', -, ht⟩ := List.mem_flatMap.mp ht
    rw [tri] at ht
    obtain ⟨u, hu, rfl⟩ := List.mem_map.mp ht
    have q := point_aff hv k k' p
    rw [q] at hm ⊢
    obtain ⟨r1, r2⟩ := (cell_part hs _).1 u hu ((meets_aff s0).mp hm)
    refine ⟨(hits_aff s0).mpr r1, ?_⟩
    rw [normal_aff]
    exact mul_ne_zero (by positivity) r2
  · have sum : winding p (ord.flatMap fun k' => polygonize (cell b (lookupOf (wo ++ co)) k')) = if k ∈ wo ++ co then 1 else 0 := by
      rw [winding_sum, List.map_flatMap]
      have : ∀ (l : List Key) (f : Key → List Int), (l.flatMap f).sum = (l.map fun x => (f x).sum).sum := by
        intro l f
        induction l with
        | nil => rfl
        | cons a l ih => rw [List.flatMap_cons, List.sum_append, ih, List.map_cons, List.sum_cons]
      rw [this]
      have each : ∀ k' ∈ ord, ((polygonize (cell b (lookupOf (wo ++ co)) k')).map (wt p)).sum =
          if InLine c.lo k k' ∧ k.X ≤ k'.X then
            ((if decide (corner k' c.lo ∈ wo ++ co) then 1 else 0) - (if decide (corner k' c.hi ∈ wo ++ co) then 1 else 0) : Int)
          else 0 := by
        intro k' _
        rw [tri, List.map_map]
        have q := point_aff hv k k' p
        refine Eq.trans ?_ (cell_part (k := k) (k' := k') hs (fun v => decide (v ∈ wo ++ co))).2
        congr 1
        apply List.map_congr_left
        intro t _
        show wt p _ = _
        conv_lhs => rw [q]
        exact wt_aff s0
      rw [List.map_congr_left each]
      obtain ⟨g1, g2, g3, g4, -⟩ := cones_geo c hs.mem
      have := parts_sum g1 g2 g3 g4 (fun v => decide (v ∈ wo ++ co)) k ord (hord.nodup_iff.mpr (gridCells_nodup _)) (by
        rintro k ⟨i, hi, hk⟩
        exact hord.mem_iff.mpr ((mem_gridCells_iff _ _).mpr ⟨i, hi, of_decide_eq_true hk⟩))
      rw [this]
      simp
    rw [sum]
    have pi := present_iff b hw hc k
    exact ⟨fun h => if_pos (pi.mpr h), fun h => if_neg fun hh => h (pi.mp hh)⟩

/-- Close to the centre of voxel (0,0,0) of the example, which is present, and of (1,0,0), which is not. -/
example : ∃ tris, MarchingRun exModel tris ∧
    ClearRay ⟨2 + 1 / 10, -1 - 1 / 5, 3 / 2 + 3 / 10⟩ tris ∧ winding ⟨2 + 1 / 10, -1 - 1 / 5, 3 / 2 + 3 / 10⟩ tris = 1 ∧
    ClearRay ⟨4 - 1 / 10, -1 + 3 / 5, 3 / 2 + 1 / 10⟩ tris ∧ winding ⟨4 - 1 / 10, -1 + 3 / 5, 3 / 2 + 1 / 10⟩ tris = 0 := by
  obtain ⟨tris, h⟩ := marching_run_exists exModel
  have v : 0 < exModel.VoxelsPerMM := by decide +kernel
  obtain ⟨a1, a2, -⟩ := marching_inside (k := ⟨0, 0, 0⟩) (p := ⟨2 + 1 / 10, -1 - 1 / 5, 3 / 2 + 3 / 10⟩) v h
    (by unfold NearCentre; decide +kernel) (by unfold OffCentre; decide +kernel)
  obtain ⟨b1, -, b2⟩ := marching_inside (k := ⟨1, 0, 0⟩) (p := ⟨4 - 1 / 10, -1 + 3 / 5, 3 / 2 + 1 / 10⟩) v h
    (by unfold NearCentre; decide +kernel) (by unfold OffCentre; decide +kernel)
  exact ⟨tris, h, a1, a2 (by unfold Present; decide +kernel), b1, b2 (by unfold Present; decide +kernel)⟩

end Marching
end StlDice
