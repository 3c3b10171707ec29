import Verif.Lemmas.ManifoldRay
import Verif.Props.ManifoldSolid
import Verif.Props.ManifoldCases
import Verif.Props.MarchingInside

/-! # ManifoldMesh encloses exactly the voxels of the model (C108) -/

namespace StlDice
namespace Manifold
open BinVOX Spec
open Marching (corner cornerOff kSub kCross kDot isPos isNeg isMixed ori PosAt NegAt MixedAt mixed_missed hits_meets hits_of aff affT
  meets_aff hits_aff normal_aff keyQ InLine wt winding_sum wt_aff wt_missed normal_pos normal_neg sum_count bary_le le_bary)

/-! ## Signs in a part of a quarter -/

/-- The value of `a + b u + c v`. -/
def val (f : Int × Int × Int) (u v : ℚ) : ℚ := f.1 + f.2.1 * u + f.2.2 * v

/-- `(u, v)` lies on the sides `ss` of the lines `gs`. -/
def Sides (u v : ℚ) : List (Int × Int × Int) → List Int → Prop :=
  List.Forall₂ fun g s => 0 < fdot g g ∧ 0 < s * val g u v

theorem lineSign_spec {f : Int × Int × Int} {u v : ℚ} {gs : List (Int × Int × Int)} {ss : List Int} (h : Sides u v gs ss)
    (h0 : lineSign f gs ss ≠ 0) : 0 < lineSign f gs ss * val f u v := by
  unfold Sides at h
  induction h with
  | nil => exact absurd rfl h0
  | @cons g s gs ss hg _ ih =>
    unfold lineSign at h0 ⊢
    by_cases hp : parallel f g = true
    · rw [if_pos hp] at h0 ⊢
      obtain ⟨a, b, c⟩ := f
      obtain ⟨a', b', c'⟩ := g
      unfold parallel at hp
      simp only [Bool.and_eq_true, decide_eq_true_eq] at hp
      obtain ⟨⟨p1, p2⟩, p3⟩ := hp
      have q1 : (a : ℚ) * b' = b * a' := by exact_mod_cast p1
      have q2 : (a : ℚ) * c' = c * a' := by exact_mod_cast p2
      have q3 : (b : ℚ) * c' = c * b' := by exact_mod_cast p3
      obtain ⟨hgg, hs⟩ := hg
      have hgg' : (0 : ℚ) < ((fdot (a', b', c') (a', b', c') : Int) : ℚ) := by exact_mod_cast hgg
      have key : ((fdot (a', b', c') (a', b', c') : Int) : ℚ) * val (a, b, c) u v =
          ((fdot (a, b, c) (a', b', c') : Int) : ℚ) * val (a', b', c') u v := by
        unfold fdot val
        push_cast
        linear_combination (b' - a' * u) * q1 + (c' - a' * v) * q2 + (c' * u - b' * v) * q3
      by_cases d1 : 0 < fdot (a, b, c) (a', b', c')
      · rw [if_pos d1]
        have d1' : (0 : ℚ) < ((fdot (a, b, c) (a', b', c') : Int) : ℚ) := by exact_mod_cast d1
        refine (mul_pos_iff_of_pos_left hgg').mp ?_
        have := mul_pos d1' hs
        linear_combination this - s * key
      · rw [if_neg d1] at h0 ⊢
        by_cases d2 : fdot (a, b, c) (a', b', c') < 0
        · rw [if_pos d2]
          have d2' : ((fdot (a, b, c) (a', b', c') : Int) : ℚ) < 0 := by exact_mod_cast d2
          refine (mul_pos_iff_of_pos_left hgg').mp ?_
          have := mul_pos (neg_pos.mpr d2') hs
          push_cast
          linear_combination this + s * key
        · rw [if_neg d2] at h0
          exact absurd rfl h0
    · rw [if_neg hp] at h0 ⊢
      exact ih h0

theorem corner_pos {f : Int × Int × Int} {u v : ℚ} (u0 : 0 < u) (u1 : u < 1) (v0 : 0 < v) (v1 : v < 1)
    (h : 0 ≤ f.1 ∧ 0 ≤ f.1 + f.2.1 ∧ 0 ≤ f.1 + f.2.2 ∧ 0 ≤ f.1 + f.2.1 + f.2.2 ∧ f ≠ (0, 0, 0)) : 0 < val f u v := by
  obtain ⟨a, b, c⟩ := f
  obtain ⟨h1, h2, h3, h4, h5⟩ := h
  dsimp only at h1 h2 h3 h4
  have e : val (a, b, c) u v = ((1 - u) * (1 - v)) * (a : ℚ) + (u * (1 - v)) * ((a : ℚ) + b) + ((1 - u) * v) * ((a : ℚ) + c) +
      (u * v) * ((a : ℚ) + b + c) := by
    unfold val
    ring
  have w1 : 0 < (1 - u) * (1 - v) := mul_pos (by linarith) (by linarith)
  have w2 : 0 < u * (1 - v) := mul_pos u0 (by linarith)
  have w3 : 0 < (1 - u) * v := mul_pos (by linarith) v0
  have w4 : 0 < u * v := mul_pos u0 v0
  have q1 : (0 : ℚ) ≤ a := by exact_mod_cast h1
  have q2 : (0 : ℚ) ≤ (a : ℚ) + b := by exact_mod_cast h2
  have q3 : (0 : ℚ) ≤ (a : ℚ) + c := by exact_mod_cast h3
  have q4 : (0 : ℚ) ≤ (a : ℚ) + b + c := by exact_mod_cast h4
  have m1 := mul_nonneg w1.le q1
  have m2 := mul_nonneg w2.le q2
  have m3 := mul_nonneg w3.le q3
  have m4 := mul_nonneg w4.le q4
  have some : 0 < a ∨ 0 < a + b ∨ 0 < a + c := by
    by_contra hn
    apply h5
    have : a = 0 ∧ b = 0 ∧ c = 0 := by omega
    rw [this.1, this.2.1, this.2.2]
  rw [e]
  rcases some with h | h | h
  · have := mul_pos w1 (by exact_mod_cast h : (0 : ℚ) < a)
    linarith
  · have := mul_pos w2 (by exact_mod_cast h : (0 : ℚ) < (a : ℚ) + b)
    linarith
  · have := mul_pos w3 (by exact_mod_cast h : (0 : ℚ) < (a : ℚ) + c)
    linarith

theorem fsign_spec {f : Int × Int × Int} {u v : ℚ} (u0 : 0 < u) (u1 : u < 1) (v0 : 0 < v) (v1 : v < 1) {ss : List Int}
    (h : Sides u v lines ss) (h0 : fsign f ss ≠ 0) : 0 < fsign f ss * val f u v := by
  unfold fsign at h0 ⊢
  by_cases h1 : 0 ≤ f.1 ∧ 0 ≤ f.1 + f.2.1 ∧ 0 ≤ f.1 + f.2.2 ∧ 0 ≤ f.1 + f.2.1 + f.2.2 ∧ f ≠ (0, 0, 0)
  · rw [if_pos h1]
    have := corner_pos u0 u1 v0 v1 h1
    push_cast
    linarith
  · rw [if_neg h1] at h0 ⊢
    by_cases h2 : f.1 ≤ 0 ∧ f.1 + f.2.1 ≤ 0 ∧ f.1 + f.2.2 ≤ 0 ∧ f.1 + f.2.1 + f.2.2 ≤ 0 ∧ f ≠ (0, 0, 0)
    · rw [if_pos h2]
      have := corner_pos (f := (-f.1, -f.2.1, -f.2.2)) u0 u1 v0 v1 ⟨by dsimp only; omega, by dsimp only; omega,
        by dsimp only; omega, by dsimp only; omega, fun hh => h2.2.2.2.2 (by
          obtain ⟨a, b, c⟩ := f
          simp only [Prod.mk.injEq] at hh ⊢
          omega)⟩
      unfold val at this ⊢
      push_cast at this ⊢
      linarith
    · rw [if_neg h2] at h0 ⊢
      exact lineSign_spec h h0

/-! ## The part a point lies in -/

def sg (x : ℚ) : Int := if 0 < x then 1 else -1

theorem sg_cases {x : ℚ} (h : x ≠ 0) : (sg x = 1 ∧ 0 < x) ∨ (sg x = -1 ∧ x < 0) := by
  unfold sg
  rcases lt_or_gt_of_ne h with h | h
  · exact .inr ⟨if_neg (by linarith), h⟩
  · exact .inl ⟨if_pos h, h⟩

theorem sg_mul {x : ℚ} (h : x ≠ 0) : 0 < sg x * x := by
  rcases sg_cases h with ⟨e, h⟩ | ⟨e, h⟩
  · rw [e]
    push_cast
    linarith
  · rw [e]
    push_cast
    linarith

theorem region_exists {u v : ℚ} (u0 : 0 < u) (u1 : u < 1) (v0 : 0 < v) (v1 : v < 1)
    (n1 : val (0, 1, -1) u v ≠ 0) (n2 : val (1, -1, -1) u v ≠ 0) (n3 : val (1, -2, -1) u v ≠ 0) (n4 : val (1, -2, 1) u v ≠ 0)
    (n5 : val (1, -1, -2) u v ≠ 0) (n6 : val (1, 1, -2) u v ≠ 0) : ∃ ss ∈ regions, Sides u v lines ss := by
  refine ⟨[sg (val (0, 1, -1) u v), sg (val (1, -1, -1) u v), sg (val (1, -2, -1) u v), sg (val (1, -2, 1) u v),
    sg (val (1, -1, -2) u v), sg (val (1, 1, -2) u v)], ?_,
    .cons ⟨by decide, sg_mul n1⟩ (.cons ⟨by decide, sg_mul n2⟩ (.cons ⟨by decide, sg_mul n3⟩ (.cons ⟨by decide, sg_mul n4⟩
      (.cons ⟨by decide, sg_mul n5⟩ (.cons ⟨by decide, sg_mul n6⟩ .nil)))))⟩
  rcases sg_cases n1 with ⟨e1, h1⟩ | ⟨e1, h1⟩ <;> rcases sg_cases n2 with ⟨e2, h2⟩ | ⟨e2, h2⟩ <;>
    rcases sg_cases n3 with ⟨e3, h3⟩ | ⟨e3, h3⟩ <;> rcases sg_cases n4 with ⟨e4, h4⟩ | ⟨e4, h4⟩ <;>
    rcases sg_cases n5 with ⟨e5, h5⟩ | ⟨e5, h5⟩ <;> rcases sg_cases n6 with ⟨e6, h6⟩ | ⟨e6, h6⟩ <;>
    rw [e1, e2, e3, e4, e5, e6] <;>
    first
      | decide
      | (exfalso
         unfold val at h1 h2 h3 h4 h5 h6
         push_cast at h1 h2 h3 h4 h5 h6
         linarith)

/-! ## One cell -/

def triK (t : Tri Key) : Tri (Vec ℚ) := ⟨keyQ t.V1, keyQ t.V2, keyQ t.V3⟩

/-- `(sy u, sz v)` is in part `ss` of the quarter, the start `dx` from the middle of the voxel. -/
structure SeenIn (q : Quarter) (ss : List Int) (dx u v : ℚ) : Prop where
  mem : q ∈ quarters
  reg : ss ∈ regions
  u0 : 0 < u
  u1 : u < 1
  v0 : 0 < v
  v1 : v < 1
  sides : Sides u v lines ss
  x0 : -1 < dx
  x1 : dx < 1

theorem quarters_geo : ∀ q ∈ quarters, q.lo < 8 ∧ q.hi < 8 ∧ (cornerOff q.lo).X = 0 ∧
    cornerOff q.lo = (cornerOff q.hi).shift (-1) 0 0 ∧
    (q.sy = 1 ∧ (cornerOff q.lo).Y = 0 ∨ q.sy = -1 ∧ (cornerOff q.lo).Y = -1) ∧
    (q.sz = 1 ∧ (cornerOff q.lo).Z = 1 ∨ q.sz = -1 ∧ (cornerOff q.lo).Z = 0) := by decide

variable {q : Quarter} {ss : List Int} {dx u v : ℚ} {k k' : Key}

theorem ori_val {A C : Key} : ori (q.sy * u) (q.sz * v) (keyQ A) (keyQ C) = val (oriF q A C) u v := by
  unfold ori val oriF keyQ
  push_cast
  ring

theorem ori_one (hs : SeenIn q ss dx u v) {A C : Key} (h : fsign (oriF q A C) ss = 1) :
    0 < ori (q.sy * u) (q.sz * v) (keyQ A) (keyQ C) := by
  have := fsign_spec hs.u0 hs.u1 hs.v0 hs.v1 hs.sides (f := oriF q A C) (by omega)
  rw [h] at this
  rw [ori_val]
  push_cast at this
  linarith

theorem ori_minus (hs : SeenIn q ss dx u v) {A C : Key} (h : fsign (oriF q A C) ss = -1) :
    ori (q.sy * u) (q.sz * v) (keyQ A) (keyQ C) < 0 := by
  have := fsign_spec hs.u0 hs.u1 hs.v0 hs.v1 hs.sides (f := oriF q A C) (by omega)
  rw [h] at this
  rw [ori_val]
  push_cast at this
  linarith

theorem pos_in (hs : SeenIn q ss dx u v) {x : ℚ} {t : Tri Key} (h : isPos (q.signs ss t) = true) :
    PosAt ⟨x, q.sy * u, q.sz * v⟩ (triK t) := by
  unfold isPos Quarter.signs at h
  simp only [Bool.and_eq_true, decide_eq_true_eq] at h
  exact ⟨ori_one hs h.1.1, ori_one hs h.1.2, ori_one hs h.2⟩

theorem neg_in (hs : SeenIn q ss dx u v) {x : ℚ} {t : Tri Key} (h : isNeg (q.signs ss t) = true) :
    NegAt ⟨x, q.sy * u, q.sz * v⟩ (triK t) := by
  unfold isNeg Quarter.signs at h
  simp only [Bool.and_eq_true, decide_eq_true_eq] at h
  exact ⟨ori_minus hs h.1.1, ori_minus hs h.1.2, ori_minus hs h.2⟩

theorem mixed_in (hs : SeenIn q ss dx u v) {x : ℚ} {t : Tri Key} (h : isMixed (q.signs ss t) = true) :
    MixedAt ⟨x, q.sy * u, q.sz * v⟩ (triK t) := by
  unfold isMixed Quarter.signs at h
  simp only [Bool.and_eq_true, Bool.or_eq_true, decide_eq_true_eq] at h
  obtain ⟨h1, h2⟩ := h
  constructor
  · rcases h1 with (h1 | h1) | h1
    · exact .inl (ori_one hs h1)
    · exact .inr (.inl (ori_one hs h1))
    · exact .inr (.inr (ori_one hs h1))
  · rcases h2 with (h1 | h1) | h1
    · exact .inl (ori_minus hs h1)
    · exact .inr (.inl (ori_minus hs h1))
    · exact .inr (.inr (ori_minus hs h1))

/-- The position relative to the cell at `k'` of the point `(dx, sy (u - 1), sz (v - 1))` from the middle of voxel `k`. -/
def relM (q : Quarter) (k k' : Key) (dx u v : ℚ) : Vec ℚ :=
  ⟨2 * ((k.X : ℚ) - k'.X) - 1 + dx, 2 * ((k.Y : ℚ) - k'.Y) + 1 + q.sy * (u - 1), 2 * ((k.Z : ℚ) - k'.Z) - 1 + q.sz * (v - 1)⟩

theorem relM_line (hq : q ∈ quarters) (hl : InLine q.lo k k') :
    relM q k k' dx u v = ⟨2 * ((k.X : ℚ) - k'.X) - 1 + dx, q.sy * u, q.sz * v⟩ := by
  obtain ⟨-, -, -, -, gy, gz⟩ := quarters_geo q hq
  obtain ⟨h1, h2⟩ := hl
  unfold corner Key.shift at h1 h2
  dsimp only at h1 h2
  unfold relM
  rw [← h1, ← h2]
  have ey : (2 : ℚ) * (cornerOff q.lo).Y + 1 = q.sy := by
    rcases gy with ⟨a, b⟩ | ⟨a, b⟩ <;> rw [a, b] <;> norm_num
  have ez : (2 : ℚ) * (cornerOff q.lo).Z - 1 = q.sz := by
    rcases gz with ⟨a, b⟩ | ⟨a, b⟩ <;> rw [a, b] <;> norm_num
  rw [Vec.mk.injEq]
  refine ⟨rfl, ?_, ?_⟩
  · push_cast
    linear_combination ey
  · push_cast
    linear_combination ez

def Small (t : Tri Key) : Prop := small t.V1 = true ∧ small t.V2 = true ∧ small t.V3 = true

theorem beside_cell {w : Vec ℚ} {t : Tri Key} (ht : Small t) (h : w.Y < -1 ∨ 1 < w.Y ∨ w.Z < -1 ∨ 1 < w.Z) :
    ¬ RayMeets w (triK t) := by
  rintro ⟨s, a, c, d, -, ha, hc, hd, h1, e⟩
  unfold blend at e
  injection e with _ ey ez
  have box : ∀ n : Key, small n = true → (-1 : ℚ) ≤ (keyQ n).Y ∧ (keyQ n).Y ≤ 1 ∧ -1 ≤ (keyQ n).Z ∧ (keyQ n).Z ≤ 1 := by
    intro n hn
    obtain ⟨-, -, b1, b2, b3, b4⟩ := of_decide_eq_true hn
    unfold keyQ
    dsimp only
    exact ⟨by exact_mod_cast b1, by exact_mod_cast b2, by exact_mod_cast b3, by exact_mod_cast b4⟩
  obtain ⟨p1, p2, p3, p4⟩ := box _ ht.1
  obtain ⟨q1, q2, q3, q4⟩ := box _ ht.2.1
  obtain ⟨r1, r2, r3, r4⟩ := box _ ht.2.2
  rcases h with h | h | h | h
  · exact absurd (Eq.subst (motive := fun x => -1 ≤ x) ey.symm (le_bary ha hc hd h1 p1 q1 r1)) (by linarith)
  · exact absurd (Eq.subst (motive := fun x => x ≤ 1) ey.symm (bary_le ha hc hd h1 p2 q2 r2)) (by linarith)
  · exact absurd (Eq.subst (motive := fun x => -1 ≤ x) ez.symm (le_bary ha hc hd h1 p3 q3 r3)) (by linarith)
  · exact absurd (Eq.subst (motive := fun x => x ≤ 1) ez.symm (bary_le ha hc hd h1 p4 q4 r4)) (by linarith)

theorem off_row (hs : SeenIn q ss dx u v) (hl : ¬ InLine q.lo k k') {t : Tri Key} (ht : Small t) :
    ¬ RayMeets (relM q k k' dx u v) (triK t) := by
  apply beside_cell ht
  obtain ⟨-, -, -, -, gy, gz⟩ := quarters_geo q hs.mem
  obtain ⟨u0, u1, v0, v1⟩ := And.intro hs.u0 (And.intro hs.u1 (And.intro hs.v0 hs.v1))
  have hl' : (corner k' q.lo).Y ≠ k.Y ∨ (corner k' q.lo).Z ≠ k.Z := by
    unfold InLine at hl
    tauto
  unfold corner Key.shift at hl'
  dsimp only at hl'
  unfold relM
  dsimp only
  rcases hl' with h | h
  · rcases gy with ⟨s, o⟩ | ⟨s, o⟩
    · rw [s]
      rw [o] at h
      push_cast
      rcases lt_or_gt_of_ne h with h | h
      · have : k'.Y + 1 ≤ k.Y := by omega
        have : (k'.Y : ℚ) + 1 ≤ k.Y := by exact_mod_cast this
        exact .inr (.inl (by linarith))
      · have : k.Y + 1 ≤ k'.Y := by omega
        have : (k.Y : ℚ) + 1 ≤ k'.Y := by exact_mod_cast this
        exact .inl (by linarith)
    · rw [s]
      rw [o] at h
      push_cast
      rcases lt_or_gt_of_ne h with h | h
      · have : k'.Y ≤ k.Y := by omega
        have : (k'.Y : ℚ) ≤ k.Y := by exact_mod_cast this
        exact .inr (.inl (by linarith))
      · have : k.Y + 2 ≤ k'.Y := by omega
        have : (k.Y : ℚ) + 2 ≤ k'.Y := by exact_mod_cast this
        exact .inl (by linarith)
  · rcases gz with ⟨s, o⟩ | ⟨s, o⟩
    · rw [s]
      rw [o] at h
      push_cast
      rcases lt_or_gt_of_ne h with h | h
      · have : k'.Z + 2 ≤ k.Z := by omega
        have : (k'.Z : ℚ) + 2 ≤ k.Z := by exact_mod_cast this
        exact .inr (.inr (.inr (by linarith)))
      · have : k.Z ≤ k'.Z := by omega
        have : (k.Z : ℚ) ≤ k'.Z := by exact_mod_cast this
        exact .inr (.inr (.inl (by linarith)))
    · rw [s]
      rw [o] at h
      push_cast
      rcases lt_or_gt_of_ne h with h | h
      · have : k'.Z + 1 ≤ k.Z := by omega
        have : (k'.Z : ℚ) + 1 ≤ k.Z := by exact_mod_cast this
        exact .inr (.inr (.inr (by linarith)))
      · have : k.Z + 1 ≤ k'.Z := by omega
        have : (k.Z : ℚ) + 1 ≤ k'.Z := by exact_mod_cast this
        exact .inr (.inr (.inl (by linarith)))

/-- A triangle across y or z through the middle of the cell is missed. -/
theorem across_missed {x y z : ℚ} (y0 : y ≠ 0) (z0 : z ≠ 0) {t : Tri Key}
    (h : (t.V1.Y = 0 ∧ t.V2.Y = 0 ∧ t.V3.Y = 0) ∨ (t.V1.Z = 0 ∧ t.V2.Z = 0 ∧ t.V3.Z = 0)) : ¬ RayMeets ⟨x, y, z⟩ (triK t) := by
  rintro ⟨s, a, c, d, -, -, -, -, -, e⟩
  unfold blend triK keyQ at e
  injection e with _ ey ez
  dsimp only at ey ez
  rcases h with ⟨h1, h2, h3⟩ | ⟨h1, h2, h3⟩
  · rw [h1, h2, h3] at ey
    apply y0
    push_cast at ey
    linarith
  · rw [h1, h2, h3] at ez
    apply z0
    push_cast at ez
    linarith

def flat (t : Tri Key) : Bool := t.V1.X = 0 ∧ t.V2.X = 0 ∧ t.V3.X = 0

theorem flat_blend {t : Tri Key} (h : flat t = true) (a c d : ℚ) : (blend (triK t) a c d).X = 0 := by
  obtain ⟨h1, h2, h3⟩ := of_decide_eq_true h
  unfold blend triK keyQ
  dsimp only
  rw [h1, h2, h3]
  push_cast
  ring

theorem flat_behind {w : Vec ℚ} (hx : 0 < w.X) {t : Tri Key} (h : flat t = true) : ¬ RayMeets w (triK t) := by
  rintro ⟨s, a, c, d, hs, -, -, -, -, e⟩
  have := congrArg Vec.X e
  rw [flat_blend h] at this
  dsimp only at this
  linarith

theorem wt_front (hs : SeenIn q ss dx u v) {x : ℚ} (hx : x < 0) {t : Tri Key}
    (h : isPos (q.signs ss t) = true ∨ isNeg (q.signs ss t) = true ∨ isMixed (q.signs ss t) = true) (hf : flat t = true) :
    (RayMeets ⟨x, q.sy * u, q.sz * v⟩ (triK t) → RayHits ⟨x, q.sy * u, q.sz * v⟩ (triK t) ∧ (normal (triK t)).X ≠ 0) ∧
    wt ⟨x, q.sy * u, q.sz * v⟩ (triK t) = (if isPos (q.signs ss t) then 1 else 0) - (if isNeg (q.signs ss t) then 1 else 0) := by
  have front : ∀ a c d : ℚ, 0 < a → 0 < c → 0 < d → a + c + d = 1 →
      (blend (triK t) a c d).Y = (⟨x, q.sy * u, q.sz * v⟩ : Vec ℚ).Y → (blend (triK t) a c d).Z = (⟨x, q.sy * u, q.sz * v⟩ : Vec ℚ).Z →
      (⟨x, q.sy * u, q.sz * v⟩ : Vec ℚ).X < (blend (triK t) a c d).X := by
    intro a c d _ _ _ _ _ _
    rw [flat_blend hf]
    exact hx
  by_cases hp : isPos (q.signs ss t) = true
  · have hp' := pos_in hs (x := x) hp
    have hit := hits_of (.inl hp') front
    have n := normal_pos hp'
    have hn : ¬ isNeg (q.signs ss t) = true := fun h => absurd (normal_neg (neg_in hs (x := x) h)) (by linarith)
    refine ⟨fun _ => ⟨hit, n.ne'⟩, ?_⟩
    unfold wt
    rw [if_pos ⟨hit, n⟩, if_pos hp, if_neg hn, sub_zero]
  · by_cases hn : isNeg (q.signs ss t) = true
    · have hn' := neg_in hs (x := x) hn
      have hit := hits_of (.inr hn') front
      have n := normal_neg hn'
      refine ⟨fun _ => ⟨hit, n.ne⟩, ?_⟩
      unfold wt
      rw [if_neg fun h => absurd h.2 (by linarith), if_pos ⟨hit, n⟩, if_neg hp, if_pos hn, zero_sub]
    · have hm : isMixed (q.signs ss t) = true := by tauto
      have := mixed_missed (mixed_in hs (x := x) hm)
      refine ⟨fun h => absurd h this, ?_⟩
      rw [wt_missed this, if_neg hp, if_neg hn, sub_zero]

/-- A cell's part of the winding number. -/
theorem cell_winding (hs : SeenIn q ss dx u v) {n : Nat} (hn : n < 256) (hwc : wcBlock n = true) (htw : n ∉ twistedChains) :
    (∀ t ∈ gridTris n, RayMeets (relM q k k' dx u v) (triK t) →
      RayHits (relM q k k' dx u v) (triK t) ∧ (normal (triK t)).X ≠ 0) ∧
    ((gridTris n).map fun t => wt (relM q k k' dx u v) (triK t)).sum =
      if InLine q.lo k k' ∧ k.X ≤ k'.X then bi n q.lo - bi n q.hi else 0 := by
  have zero : (∀ t ∈ gridTris n, ¬ RayMeets (relM q k k' dx u v) (triK t)) →
      ((gridTris n).map fun t => wt (relM q k k' dx u v) (triK t)).sum = 0 := by
    intro h
    apply List.sum_eq_zero
    intro x hx
    obtain ⟨t, ht, rfl⟩ := List.mem_map.mp hx
    exact wt_missed (h t ht)
  have ok := quarters_ok n (List.mem_range.mpr hn) hwc htw q hs.mem ss hs.reg
  unfold quarterOK at ok
  rw [Bool.and_eq_true, List.all_eq_true] at ok
  obtain ⟨okT, okN⟩ := ok
  have split : ∀ t ∈ gridTris n, (flat t = true ∧ (isPos (q.signs ss t) = true ∨ isNeg (q.signs ss t) = true ∨
      isMixed (q.signs ss t) = true)) ∨ (flat t = false ∧
      ((t.V1.Y = 0 ∧ t.V2.Y = 0 ∧ t.V3.Y = 0) ∨ (t.V1.Z = 0 ∧ t.V2.Z = 0 ∧ t.V3.Z = 0))) := by
    intro t ht
    have := okT t ht
    by_cases hf : t.V1.X = 0 ∧ t.V2.X = 0 ∧ t.V3.X = 0
    · rw [if_pos hf] at this
      simp only [Bool.or_eq_true] at this
      exact .inl ⟨decide_eq_true hf, by tauto⟩
    · rw [if_neg hf] at this
      exact .inr ⟨decide_eq_false hf, of_decide_eq_true this⟩
  obtain ⟨-, -, -, -, gy, gz⟩ := quarters_geo q hs.mem
  have y0 : (q.sy : ℚ) * u ≠ 0 := mul_ne_zero (by rcases gy with ⟨a, -⟩ | ⟨a, -⟩ <;> rw [a] <;> norm_num) hs.u0.ne'
  have z0 : (q.sz : ℚ) * v ≠ 0 := mul_ne_zero (by rcases gz with ⟨a, -⟩ | ⟨a, -⟩ <;> rw [a] <;> norm_num) hs.v0.ne'
  by_cases hl : InLine q.lo k k'
  · have er := relM_line (dx := dx) (u := u) (v := v) hs.mem hl
    by_cases hx : k.X ≤ k'.X
    · have hx' : 2 * ((k.X : ℚ) - k'.X) - 1 + dx < 0 := by
        have : (k.X : ℚ) ≤ k'.X := by exact_mod_cast hx
        have := hs.x1
        linarith
      rw [er]
      refine ⟨fun t ht hm => ?_, ?_⟩
      · rcases split t ht with ⟨hf, hh⟩ | ⟨-, hh⟩
        · exact (wt_front hs hx' hh hf).1 hm
        · exact absurd hm (across_missed y0 z0 hh)
      · have each : ∀ t ∈ gridTris n, wt ⟨2 * ((k.X : ℚ) - k'.X) - 1 + dx, q.sy * u, q.sz * v⟩ (triK t) =
            (if (isPos (q.signs ss t) && flat t) then 1 else 0) - (if (isNeg (q.signs ss t) && flat t) then 1 else 0) := by
          intro t ht
          rcases split t ht with ⟨hf, hh⟩ | ⟨hf, hh⟩
          · rw [(wt_front hs hx' hh hf).2, hf, Bool.and_true, Bool.and_true]
          · rw [wt_missed (across_missed y0 z0 hh), hf, Bool.and_false, Bool.and_false]
            rfl
        rw [List.map_congr_left each, sum_count, if_pos (show InLine q.lo k k' ∧ k.X ≤ k'.X from ⟨hl, hx⟩),
          ← of_decide_eq_true okN, List.countP_filter, List.countP_filter]
        rfl
    · have hx' : 0 < (relM q k k' dx u v).X := by
        rw [er]
        show 0 < 2 * ((k.X : ℚ) - k'.X) - 1 + dx
        have : (k'.X : ℚ) + 1 ≤ k.X := by exact_mod_cast (not_le.mp hx)
        have := hs.x0
        linarith
      have miss : ∀ t ∈ gridTris n, ¬ RayMeets (relM q k k' dx u v) (triK t) := by
        intro t ht
        rcases split t ht with ⟨hf, -⟩ | ⟨-, hh⟩
        · exact flat_behind hx' hf
        · rw [er]
          exact across_missed y0 z0 hh
      exact ⟨fun t ht h => absurd h (miss t ht), by rw [zero miss, if_neg fun h => hx h.2]⟩
  · have miss : ∀ t ∈ gridTris n, ¬ RayMeets (relM q k k' dx u v) (triK t) :=
      fun t ht => off_row hs hl (grid_small n (List.mem_range.mpr hn) t ht)
    exact ⟨fun t ht h => absurd h (miss t ht), by rw [zero miss, if_neg fun h => hl h.1]⟩

/-! ## The whole mesh -/

theorem half_aff (b : BinVOX ℚ) (k' : Key) (t : Tri Key) :
    mapT (halfPoint b) (shiftT k' t) = affT (1 / (2 * b.VoxelsPerMM)) (cc b k') (triK t) := by
  have one : ∀ e : Key, halfPoint b (e.shift (2 * k'.X) (2 * k'.Y) (2 * k'.Z)) = aff (1 / (2 * b.VoxelsPerMM)) (cc b k') (keyQ e) := by
    intro e
    unfold halfPoint aff cc halfPoint keyQ Key.shift
    dsimp only
    push_cast
    rw [Vec.mk.injEq]
    refine ⟨?_, ?_, ?_⟩ <;> field_simp <;> ring
  unfold mapT shiftT affT triK
  dsimp only
  rw [one, one, one]

theorem point_cell {b : BinVOX ℚ} (hv : 0 < b.VoxelsPerMM) (q : Quarter) (k k' : Key) (p : Vec ℚ) {u v : ℚ}
    (eu : 2 * b.VoxelsPerMM * (p.Y - (centre b k).Y) = q.sy * (u - 1)) (ev : 2 * b.VoxelsPerMM * (p.Z - (centre b k).Z) = q.sz * (v - 1)) :
    p = aff (1 / (2 * b.VoxelsPerMM)) (cc b k') (relM q k k' (2 * b.VoxelsPerMM * (p.X - (centre b k).X)) u v) := by
  unfold relM
  rw [← eu, ← ev]
  obtain ⟨x, y, z⟩ := p
  unfold aff cc halfPoint centre
  dsimp only
  rw [Vec.mk.injEq]
  push_cast
  refine ⟨?_, ?_, ?_⟩ <;> field_simp <;> ring

theorem seenIn_exists {dx dy dz : ℚ} (hx : |dx| < 1) (hy : |dy| < 1) (hz : |dz| < 1) (y0 : dy ≠ 0) (z0 : dz ≠ 0) (s1 : |dy| ≠ |dz|)
    (s2 : |dy| ≠ 2 * |dz|) (s3 : 2 * |dy| ≠ |dz|) (s4 : |dy| + |dz| ≠ 1) (s5 : 2 * |dy| + |dz| ≠ 2) (s6 : |dy| + 2 * |dz| ≠ 2) :
    ∃ q ss u v, SeenIn q ss dx u v ∧ dy = q.sy * (u - 1) ∧ dz = q.sz * (v - 1) := by
  have ay := abs_pos.mpr y0
  have az := abs_pos.mpr z0
  obtain ⟨x0, x1⟩ := abs_lt.mp hx
  obtain ⟨ss, hr, hss⟩ := region_exists (u := 1 - |dy|) (v := 1 - |dz|) (by linarith) (by linarith) (by linarith) (by linarith)
    (by unfold val; push_cast; intro h; apply s1; linarith) (by unfold val; push_cast; intro h; apply s4; linarith)
    (by unfold val; push_cast; intro h; apply s5; linarith) (by unfold val; push_cast; intro h; apply s3; linarith)
    (by unfold val; push_cast; intro h; apply s6; linarith) (by unfold val; push_cast; intro h; apply s2; linarith)
  have mk : ∀ q ∈ quarters, dy = q.sy * (-|dy|) → dz = q.sz * (-|dz|) →
      ∃ q ss u v, SeenIn q ss dx u v ∧ dy = q.sy * (u - 1) ∧ dz = q.sz * (v - 1) := by
    intro q hq ey ez
    refine ⟨q, ss, 1 - |dy|, 1 - |dz|, ⟨hq, hr, by linarith, by linarith, by linarith, by linarith, hss, x0, x1⟩, ?_, ?_⟩
    · rw [show (1 : ℚ) - |dy| - 1 = -|dy| by ring]
      exact ey
    · rw [show (1 : ℚ) - |dz| - 1 = -|dz| by ring]
      exact ez
  rcases lt_or_gt_of_ne y0 with h1 | h1 <;> rcases lt_or_gt_of_ne z0 with h2 | h2
  · exact mk ⟨4, 5, 1, 1⟩ (by simp [quarters]) (by rw [abs_of_neg h1]; push_cast; ring) (by rw [abs_of_neg h2]; push_cast; ring)
  · exact mk ⟨0, 1, 1, -1⟩ (by simp [quarters]) (by rw [abs_of_neg h1]; push_cast; ring) (by rw [abs_of_pos h2]; push_cast; ring)
  · exact mk ⟨7, 6, -1, 1⟩ (by simp [quarters]) (by rw [abs_of_pos h1]; push_cast; ring) (by rw [abs_of_neg h2]; push_cast; ring)
  · exact mk ⟨3, 2, -1, -1⟩ (by simp [quarters]) (by rw [abs_of_pos h1]; push_cast; ring) (by rw [abs_of_pos h2]; push_cast; ring)

/-- **C108.** Around a point inside of a voxel the mesh of a well-composed model without twisted chains winds once if the voxel
    is present and not at all if it is not. -/
theorem manifold_inside {b : BinVOX ℚ} (hv : 0 < b.VoxelsPerMM) {tris : List (Tri (Vec ℚ))} (h : ManifoldRun b tris)
    (hwc : WellComposed b) (ht : ∀ k, blockBits b k ∉ twistedChains) {k : Key} {p : Vec ℚ} (hn : InVoxel b k p) (ho : OffLines b k p) :
    ClearRay p tris ∧ (Present b k → winding p tris = 1) ∧ (¬ Present b k → winding p tris = 0) := by
  classical
  obtain ⟨wo, co, ord, hw, hc, hord, rfl⟩ := h
  obtain ⟨e1, n1, m1⟩ := ord_eq b hw hc hord
  generalize ord.map Prod.fst = ks at e1 n1 m1
  subst e1
  have v2 : (0 : ℚ) < 2 * b.VoxelsPerMM := by linarith
  obtain ⟨q, ss, u, v, hs, eu, ev⟩ : ∃ q ss u v, SeenIn q ss (2 * b.VoxelsPerMM * (p.X - (centre b k).X)) u v ∧
      2 * b.VoxelsPerMM * (p.Y - (centre b k).Y) = q.sy * (u - 1) ∧
      2 * b.VoxelsPerMM * (p.Z - (centre b k).Z) = q.sz * (v - 1) := by
    obtain ⟨⟨o1, o2, o3, o4, o5⟩, o6, o7, o8⟩ := ho
    obtain ⟨b1, b2, b3⟩ := hn
    have ab : ∀ x : ℚ, |2 * b.VoxelsPerMM * x| = 2 * b.VoxelsPerMM * |x| := fun x => by rw [abs_mul, abs_of_pos v2]
    have lt1 : ∀ x : ℚ, |x| < 1 / (2 * b.VoxelsPerMM) → |2 * b.VoxelsPerMM * x| < 1 := by
      intro x hx
      rw [ab]
      rw [lt_div_iff₀ v2] at hx
      linarith
    have ne : ∀ x c : ℚ, x ≠ c * (1 / (2 * b.VoxelsPerMM)) → 2 * b.VoxelsPerMM * x ≠ c := by
      intro x c h he
      apply h
      rw [mul_one_div, eq_div_iff v2.ne', ← he]
      ring
    apply seenIn_exists (lt1 _ b1) (lt1 _ b2) (lt1 _ b3)
    · exact mul_ne_zero v2.ne' (sub_ne_zero.mpr o1)
    · exact mul_ne_zero v2.ne' (sub_ne_zero.mpr o2)
    · rw [ab, ab]
      exact fun h => o3 (mul_left_cancel₀ v2.ne' h)
    · rw [ab, ab]
      exact fun h => o4 (mul_left_cancel₀ v2.ne' (by linarith))
    · rw [ab, ab]
      exact fun h => o5 (mul_left_cancel₀ v2.ne' (by linarith))
    · rw [ab, ab, ← mul_add]
      exact ne _ _ (by rw [one_mul]; exact o6)
    · rw [ab, ab]
      intro h
      exact ne _ _ o7 (by linarith)
    · rw [ab, ab]
      intro h
      exact ne _ _ o8 (by linarith)
  have s0 : (0 : ℚ) < 1 / (2 * b.VoxelsPerMM) := by positivity
  have tri : ∀ k', cellTris b (k', blockBits b k') =
      (gridTris (blockBits b k')).map fun t => affT (1 / (2 * b.VoxelsPerMM)) (cc b k') (triK t) := by
    intro k'
    rw [cellTris_rat b k' (blockBits_lt b k')]
    exact List.map_congr_left fun t _ => half_aff b k' t
  have part := fun k' => cell_winding (k := k) (k' := k') hs (blockBits_lt b k') (wcBlock_of hwc k') (ht k')
  rw [List.flatMap_map]
  constructor
  · intro t ht hm
    obtain ⟨k', -, ht⟩ := List.mem_flatMap.mp ht
    rw [tri] at ht
    obtain ⟨f, hf, rfl⟩ := List.mem_map.mp ht
    have e := point_cell hv q k k' p eu ev
    rw [e] at hm ⊢
    obtain ⟨r1, r2⟩ := (part k').1 f hf ((meets_aff s0).mp hm)
    refine ⟨(hits_aff s0).mpr r1, ?_⟩
    rw [normal_aff]
    exact mul_ne_zero (by positivity) r2
  · have sum : winding p (ks.flatMap fun k' => cellTris b (k', blockBits b k')) = if pres b k then 1 else 0 := by
      rw [winding_sum, List.map_flatMap]
      have : ∀ (l : List Key) (f : Key → List Int), (l.flatMap f).sum = (l.map fun x => (f x).sum).sum := by
        intro l f
        induction l with
        | nil => rfl
        | cons a l ih => rw [List.flatMap_cons, List.sum_append, ih, List.map_cons, List.sum_cons]
      rw [this]
      obtain ⟨g1, g2, g3, g4, -⟩ := quarters_geo q hs.mem
      have each : ∀ k' ∈ ks, ((cellTris b (k', blockBits b k')).map (wt p)).sum =
          if InLine q.lo k k' ∧ k.X ≤ k'.X then
            ((if pres b (corner k' q.lo) then 1 else 0) - (if pres b (corner k' q.hi) then 1 else 0) : Int)
          else 0 := by
        intro k' _
        rw [tri, List.map_map]
        have e := point_cell hv q k k' p eu ev
        have bits : ∀ i < 8, bi (blockBits b k') i = if pres b (corner k' i) then 1 else 0 := by
          intro i hi
          unfold bi
          rw [blockBits_bit b k' i hi]
        rw [← bits _ g1, ← bits _ g2]
        refine Eq.trans ?_ (part k').2
        congr 1
        apply List.map_congr_left
        intro t _
        show wt p _ = _
        conv_lhs => rw [e]
        exact wt_aff s0
      rw [List.map_congr_left each]
      exact Marching.parts_sum g1 g2 g3 g4 (pres b) k ks n1 fun k' ⟨i, hi, hk⟩ => (m1 k').mpr ⟨i, hi, hk⟩
    rw [sum]
    exact ⟨fun h => if_pos h, fun h => if_neg h⟩

/-- Near a corner of voxel (1,0,0) of the L of three voxels, which is present, and of (0,1,0), which is not. -/
example : ∃ tris, ManifoldRun (modelOf ellVox) tris ∧
    ClearRay ⟨11 / 10, 9 / 10, 1 / 20⟩ tris ∧ winding ⟨11 / 10, 9 / 10, 1 / 20⟩ tris = 1 ∧
    ClearRay ⟨9 / 10, 11 / 10, 1 / 20⟩ tris ∧ winding ⟨9 / 10, 11 / 10, 1 / 20⟩ tris = 0 := by
  obtain ⟨tris, h⟩ := manifold_run_exists (modelOf ellVox)
  have v : 0 < (modelOf ellVox).VoxelsPerMM := by decide +kernel
  obtain ⟨w1, w2, -⟩ := manifold_t_junction
  obtain ⟨a1, a2, -⟩ := manifold_inside (k := ⟨1, 0, 0⟩) (p := ⟨11 / 10, 9 / 10, 1 / 20⟩) v h w1 w2
    (by unfold InVoxel; decide +kernel) (by unfold OffLines OffCentre; decide +kernel)
  obtain ⟨b1, -, b2⟩ := manifold_inside (k := ⟨0, 1, 0⟩) (p := ⟨9 / 10, 11 / 10, 1 / 20⟩) v h w1 w2
    (by unfold InVoxel; decide +kernel) (by unfold OffLines OffCentre; decide +kernel)
  exact ⟨tris, h, a1, a2 ((modelOf_present _ _).mpr (by decide)), b1, b2 fun hh => absurd ((modelOf_present _ _).mp hh) (by decide)⟩

end Manifold
end StlDice
