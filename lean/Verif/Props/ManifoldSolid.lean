import Verif.Lemmas.ManifoldSolid
import Verif.Props.Manifold
import Mathlib.Tactic.LinearCombination
import Mathlib.Tactic.Positivity

/-! # ManifoldMesh on well-composed models: exactly the skin of the voxels (C50, C70, C71) -/

namespace StlDice
namespace Manifold
open Spec GoFloat BinVOX
open Marching (corner cornerOff shiftE kSub kCross kDot shiftEquiv)

/-! ## Well-composed models have well-composed blocks -/

theorem axis_between (a b c : Int) :
    (a - c).natAbs ≤ (a - b).natAbs + (b - c).natAbs ∧
    ((a - b).natAbs + (b - c).natAbs = (a - c).natAbs → (a ≤ b ∧ b ≤ c) ∨ (c ≤ b ∧ b ≤ a)) := by
  constructor
  · omega
  · intro h; omega

theorem dist_between {u w v : Key} (h : dist u w + dist w v = dist u v) :
    ((u.X ≤ w.X ∧ w.X ≤ v.X) ∨ (v.X ≤ w.X ∧ w.X ≤ u.X)) ∧
    ((u.Y ≤ w.Y ∧ w.Y ≤ v.Y) ∨ (v.Y ≤ w.Y ∧ w.Y ≤ u.Y)) ∧
    ((u.Z ≤ w.Z ∧ w.Z ≤ v.Z) ∨ (v.Z ≤ w.Z ∧ w.Z ≤ u.Z)) := by
  obtain ⟨x1, x2⟩ := axis_between u.X w.X v.X
  obtain ⟨y1, y2⟩ := axis_between u.Y w.Y v.Y
  obtain ⟨z1, z2⟩ := axis_between u.Z w.Z v.Z
  unfold dist at h
  generalize (u.X - w.X).natAbs = a1 at *
  generalize (w.X - v.X).natAbs = a2 at *
  generalize (u.X - v.X).natAbs = a3 at *
  generalize (u.Y - w.Y).natAbs = b1 at *
  generalize (w.Y - v.Y).natAbs = b2 at *
  generalize (u.Y - v.Y).natAbs = b3 at *
  generalize (u.Z - w.Z).natAbs = c1 at *
  generalize (w.Z - v.Z).natAbs = c2 at *
  generalize (u.Z - v.Z).natAbs = c3 at *
  exact ⟨x2 (by omega), y2 (by omega), z2 (by omega)⟩

theorem off_range : ∀ i ∈ List.range 8, 0 ≤ (cornerOff i).X ∧ (cornerOff i).X ≤ 1 ∧
    -1 ≤ (cornerOff i).Y ∧ (cornerOff i).Y ≤ 0 ∧ 0 ≤ (cornerOff i).Z ∧ (cornerOff i).Z ≤ 1 := by
  decide

theorem corner_of_range {k w : Key} (h1 : k.X ≤ w.X) (h2 : w.X ≤ k.X + 1) (h3 : k.Y - 1 ≤ w.Y)
    (h4 : w.Y ≤ k.Y) (h5 : k.Z ≤ w.Z) (h6 : w.Z ≤ k.Z + 1) : ∃ l < 8, w = corner k l := by
  obtain ⟨X, Y, Z⟩ := w
  obtain ⟨a, b, c⟩ := k
  dsimp only at *
  have hX : X = a ∨ X = a + 1 := by omega
  have hY : Y = b ∨ Y = b + -1 := by omega
  have hZ : Z = c ∨ Z = c + 1 := by omega
  rcases hX with rfl | rfl <;> rcases hY with rfl | rfl <;> rcases hZ with rfl | rfl
  · exact ⟨0, by decide, by simp [corner, cornerOff, Key.shift]⟩
  · exact ⟨4, by decide, by simp [corner, cornerOff, Key.shift]⟩
  · exact ⟨3, by decide, by simp [corner, cornerOff, Key.shift]⟩
  · exact ⟨7, by decide, by simp [corner, cornerOff, Key.shift]⟩
  · exact ⟨1, by decide, by simp [corner, cornerOff, Key.shift]⟩
  · exact ⟨5, by decide, by simp [corner, cornerOff, Key.shift]⟩
  · exact ⟨2, by decide, by simp [corner, cornerOff, Key.shift]⟩
  · exact ⟨6, by decide, by simp [corner, cornerOff, Key.shift]⟩

theorem dist_corner (k : Key) (i j : Nat) : dist (corner k i) (corner k j) = cdist i j := by
  unfold dist cdist dist corner Key.shift
  dsimp only
  rw [show k.X + (cornerOff i).X - (k.X + (cornerOff j).X) = (cornerOff i).X - (cornerOff j).X by ring,
    show k.Y + (cornerOff i).Y - (k.Y + (cornerOff j).Y) = (cornerOff i).Y - (cornerOff j).Y by ring,
    show k.Z + (cornerOff i).Z - (k.Z + (cornerOff j).Z) = (cornerOff i).Z - (cornerOff j).Z by ring]

theorem wcBlock_of {F : Type} [GoFloat F] {b : BinVOX F} (h : WellComposed b) (k : Key) :
    wcBlock (blockBits b k) = true := by
  unfold wcBlock
  rw [List.all_eq_true]
  intro i hi
  rw [List.all_eq_true]
  intro j hj
  have hi8 := List.mem_range.mp hi
  have hj8 := List.mem_range.mp hj
  by_cases hc : ((blockBits b k).testBit i == (blockBits b k).testBit j && decide (2 ≤ cdist i j)) = true
  · rw [hc, Bool.not_true, Bool.false_or, List.any_eq_true]
    rw [Bool.and_eq_true, beq_iff_eq, decide_eq_true_eq, blockBits_bit b k i hi8,
      blockBits_bit b k j hj8] at hc
    obtain ⟨he, hd⟩ := hc
    obtain ⟨i1, i2, i3, i4, i5, i6⟩ := off_range i hi
    obtain ⟨j1, j2, j3, j4, j5, j6⟩ := off_range j hj
    obtain ⟨w, hwu, hwv, hbt, hp⟩ := h (corner k i) (corner k j)
      (by unfold corner Key.shift; dsimp only; omega) (by unfold corner Key.shift; dsimp only; omega)
      (by unfold corner Key.shift; dsimp only; omega) (by rw [dist_corner]; exact hd)
      (by
        unfold pres at he
        unfold Present
        rw [he])
    obtain ⟨bx, by', bz⟩ := dist_between hbt
    unfold corner Key.shift at bx by' bz
    dsimp only at bx by' bz
    obtain ⟨l, hl, rfl⟩ : ∃ l < 8, w = corner k l := by
      apply corner_of_range
      · rcases bx with h | h <;> omega
      · rcases bx with h | h <;> omega
      · rcases by' with h | h <;> omega
      · rcases by' with h | h <;> omega
      · rcases bz with h | h <;> omega
      · rcases bz with h | h <;> omega
    refine ⟨l, List.mem_range.mpr hl, ?_⟩
    rw [dist_corner, dist_corner, dist_corner] at hbt
    rw [blockBits_bit b k l hl, blockBits_bit b k i hi8]
    have e1 : l ≠ i := fun e => hwu (by rw [e])
    have e2 : l ≠ j := fun e => hwv (by rw [e])
    have e3 : pres b (corner k l) = pres b (corner k i) := by
      unfold Present at hp
      unfold pres
      exact Bool.eq_iff_iff.mpr hp
    simp [e1, e2, hbt, e3]
  · simp only [Bool.not_eq_true] at hc
    rw [hc]
    rfl

/-- **C50.** The mesh of a well-composed model without twisted chains is closed. -/
theorem manifold_closed_wellcomposed {b : BinVOX ℚ} {tris : List (Tri (Vec ℚ))} (h : ManifoldRun b tris)
    (hw : WellComposed b) (ht : ∀ k, blockBits b k ∉ twistedChains) : ClosedAfterHalving tris :=
  manifold_closed h fun k => wc_good _ (List.mem_range.mpr (blockBits_lt b k)) (wcBlock_of hw k) (ht k)

/-! ## Sums over cells -/

theorem shift_sum (S V : Finset Key) (o : Key) (g : Key → ℚ)
    (hS : ∀ k, g (k.shift o.X o.Y o.Z) ≠ 0 → k ∈ S) (hV : ∀ v, g v ≠ 0 → v ∈ V) :
    ∑ k ∈ S, g (k.shift o.X o.Y o.Z) = ∑ v ∈ V, g v := by
  have h1 : ∑ᶠ k, g (shiftEquiv o k) = ∑ k ∈ S, g (k.shift o.X o.Y o.Z) := by
    apply finsum_eq_sum_of_support_subset
    intro k hk
    exact hS k hk
  have h2 : ∑ᶠ k, g k = ∑ k ∈ V, g k := by
    apply finsum_eq_sum_of_support_subset
    intro k hk
    exact hV k hk
  rw [← h1, ← h2, finsum_comp_equiv (shiftEquiv o)]

/-- 1 for a voxel of the model, 0 otherwise. -/
def ind (b : BinVOX ℚ) (v : Key) : ℚ := if pres b v then 1 else 0

theorem bi_corner (b : BinVOX ℚ) (k : Key) {i : Nat} (hi : i < 8) :
    ((bi (blockBits b k) i : Int) : ℚ) = ind b (k.shift (cornerOff i).X (cornerOff i).Y (cornerOff i).Z) := by
  unfold bi ind
  rw [blockBits_bit b k i hi]
  show _ = if pres b (corner k i) then _ else _
  split <;> norm_num

section Sums
variable (b : BinVOX ℚ) (S V : Finset Key)
  (hS : ∀ k, (∃ i < 8, Present b (corner k i)) → k ∈ S) (hV : ∀ v, v ∈ V ↔ Present b v)
include hS hV

theorem ind_shift_sum {i : Nat} (hi : i < 8) (g : Key → ℚ) (hg : ∀ v, pres b v = false → g v = 0) :
    ∑ k ∈ S, g (corner k i) = ∑ v ∈ V, g v := by
  apply shift_sum S V (cornerOff i) g
  · intro k hk
    apply hS k ⟨i, hi, ?_⟩
    by_contra hc
    apply hk
    apply hg
    show pres b (corner k i) = false
    unfold Present at hc
    simpa [pres] using hc
  · intro v hv
    rw [hV]
    by_contra hc
    apply hv
    apply hg
    unfold Present at hc
    simpa [pres] using hc

theorem ind_mem {v : Key} (hv : v ∈ V) : ind b v = 1 := by
  have := (hV v).mp hv
  unfold ind pres
  exact if_pos this

/-- Summation by parts along one axis. -/
theorem parts_sum {i j : Nat} (hi : i < 8) (hj : j < 8) (c : Key → ℚ) (m : ℚ)
    (hc : ∀ v : Key, c (v.shift (-(cornerOff i).X) (-(cornerOff i).Y) (-(cornerOff i).Z)) -
      c (v.shift (-(cornerOff j).X) (-(cornerOff j).Y) (-(cornerOff j).Z)) = m) :
    ∑ k ∈ S, c k * (((bi (blockBits b k) i : Int) : ℚ) - ((bi (blockBits b k) j : Int) : ℚ)) =
      m * V.card := by
  have hpart : ∀ l, l < 8 → ∑ k ∈ S, c k * ((bi (blockBits b k) l : Int) : ℚ) =
      ∑ v ∈ V, c (v.shift (-(cornerOff l).X) (-(cornerOff l).Y) (-(cornerOff l).Z)) := by
    intro l hl
    have h := ind_shift_sum b S V hS hV hl
      (fun v => c (v.shift (-(cornerOff l).X) (-(cornerOff l).Y) (-(cornerOff l).Z)) * ind b v)
      (by
        intro v hv
        unfold ind
        rw [hv]
        simp)
    rw [Finset.sum_congr rfl (fun v hv => by rw [ind_mem b S V hS hV hv, mul_one] :
      ∀ v ∈ V, c (v.shift (-(cornerOff l).X) (-(cornerOff l).Y) (-(cornerOff l).Z)) * ind b v =
        c (v.shift (-(cornerOff l).X) (-(cornerOff l).Y) (-(cornerOff l).Z)))] at h
    rw [← h]
    apply Finset.sum_congr rfl
    intro k _
    rw [bi_corner b k hl]
    have e : (corner k l).shift (-(cornerOff l).X) (-(cornerOff l).Y) (-(cornerOff l).Z) = k :=
      (shiftEquiv (cornerOff l)).left_inv k
    rw [e]
    rfl
  have : ∀ k ∈ S, c k * (((bi (blockBits b k) i : Int) : ℚ) - ((bi (blockBits b k) j : Int) : ℚ)) =
      c k * ((bi (blockBits b k) i : Int) : ℚ) - c k * ((bi (blockBits b k) j : Int) : ℚ) :=
    fun k _ => mul_sub _ _ _
  rw [Finset.sum_congr rfl this, Finset.sum_sub_distrib, hpart i hi, hpart j hj, ← Finset.sum_sub_distrib,
    Finset.sum_congr rfl (fun v _ => hc v), Finset.sum_const, nsmul_eq_mul, mul_comm]

end Sums

/-! ## Volume -/

theorem det_eq (p q r : Vec ℚ) : vdot p (vcross q r) = vdot p (normal ⟨p, q, r⟩) := by
  unfold normal vdot vcross vsub
  dsimp only
  ring

/-- The centre of cell `k`. -/
def cc (b : BinVOX ℚ) (k : Key) : Vec ℚ := halfPoint b ⟨2 * k.X, 2 * k.Y, 2 * k.Z⟩

theorem normal_half (b : BinVOX ℚ) (k : Key) (t : Tri Key) :
    normal (mapT (halfPoint b) (shiftT k t)) =
      ⟨(1 / b.VoxelsPerMM) ^ 2 / 4 * (kNormal t).X, (1 / b.VoxelsPerMM) ^ 2 / 4 * (kNormal t).Y,
       (1 / b.VoxelsPerMM) ^ 2 / 4 * (kNormal t).Z⟩ := by
  unfold normal mapT shiftT halfPoint vcross vsub kNormal kCross kSub Key.shift
  dsimp only
  push_cast
  congr 1 <;> ring

theorem tri_volume (b : BinVOX ℚ) (k : Key) (t : Tri Key) (h0 : kDot t.V1 (kNormal t) = 0) :
    vdot (mapT (halfPoint b) (shiftT k t)).V1
      (vcross (mapT (halfPoint b) (shiftT k t)).V2 (mapT (halfPoint b) (shiftT k t)).V3) =
    (1 / b.VoxelsPerMM) ^ 2 / 4 *
      ((cc b k).X * (kNormal t).X + (cc b k).Y * (kNormal t).Y + (cc b k).Z * (kNormal t).Z) := by
  rw [det_eq]
  have e : (⟨(mapT (halfPoint b) (shiftT k t)).V1, (mapT (halfPoint b) (shiftT k t)).V2,
      (mapT (halfPoint b) (shiftT k t)).V3⟩ : Tri (Vec ℚ)) = mapT (halfPoint b) (shiftT k t) := rfl
  rw [e, normal_half]
  have hq : (t.V1.X : ℚ) * (kNormal t).X + t.V1.Y * (kNormal t).Y + t.V1.Z * (kNormal t).Z = 0 := by
    unfold kDot at h0
    exact_mod_cast h0
  unfold vdot cc halfPoint mapT shiftT Key.shift
  dsimp only
  push_cast
  generalize ((kNormal t).X : ℚ) = x at *
  generalize ((kNormal t).Y : ℚ) = y at *
  generalize ((kNormal t).Z : ℚ) = z at *
  generalize 1 / b.VoxelsPerMM = m at *
  linear_combination (m ^ 3 / 8) * hq

theorem cell_volume (b : BinVOX ℚ) (k : Key) (l : List (Tri Key))
    (h0 : ∀ t ∈ l, kDot t.V1 (kNormal t) = 0) :
    ((l.map fun t => mapT (halfPoint b) (shiftT k t)).map fun t => vdot t.V1 (vcross t.V2 t.V3)).sum =
    (1 / b.VoxelsPerMM) ^ 2 / 4 *
      ((cc b k).X * (((l.map fun t => (kNormal t).X).sum : Int) : ℚ) +
       (cc b k).Y * (((l.map fun t => (kNormal t).Y).sum : Int) : ℚ) +
       (cc b k).Z * (((l.map fun t => (kNormal t).Z).sum : Int) : ℚ)) := by
  induction l with
  | nil => simp
  | cons t l ih =>
    rw [List.map_cons, List.map_cons, List.sum_cons, ih (fun t ht => h0 t (List.mem_cons_of_mem _ ht)),
      tri_volume b k t (h0 t List.mem_cons_self)]
    simp only [List.map_cons, List.sum_cons]
    push_cast
    ring

theorem sum_flatMap {α : Type} (l : List Key) (f : Key → List α) (w : α → ℚ) :
    ((l.flatMap f).map w).sum = (l.map fun k => ((f k).map w).sum).sum := by
  induction l with
  | nil => rfl
  | cons a l ih => rw [List.flatMap_cons, List.map_append, List.sum_append, ih, List.map_cons, List.sum_cons]

/-- **C70.** For a well-composed model without twisted chains, the volume enclosed by the mesh is
    the number of voxels times the volume of a voxel. -/
theorem manifold_volume {b : BinVOX ℚ} {tris : List (Tri (Vec ℚ))} (h : ManifoldRun b tris)
    (hwc : WellComposed b) (ht : ∀ k, blockBits b k ∉ twistedChains)
    {vox : List Key} (hnd : vox.Nodup) (hvox : ∀ k, k ∈ vox ↔ Present b k) :
    volume tris = vox.length * (1 / b.VoxelsPerMM) ^ 3 := by
  obtain ⟨wo, co, ord, hw, hc, ho, rfl⟩ := h
  obtain ⟨e1, n1, m1⟩ := ord_eq b hw hc ho
  generalize ord.map Prod.fst = ks at e1 n1 m1
  have hS : ∀ k, (∃ i < 8, Present b (corner k i)) → k ∈ ks.toFinset := fun k hk =>
    List.mem_toFinset.mpr ((m1 k).mpr hk)
  have hV : ∀ v, v ∈ vox.toFinset ↔ Present b v := fun v => List.mem_toFinset.trans (hvox v)
  have hsum : ((ord.flatMap (cellTris b)).map fun t => vdot t.V1 (vcross t.V2 t.V3)).sum =
      6 * (vox.length * (1 / b.VoxelsPerMM) ^ 3) := by
    rw [e1, List.flatMap_map, sum_flatMap, ← List.sum_toFinset _ n1]
    have hcell : ∀ k ∈ ks.toFinset,
        ((cellTris b (k, blockBits b k)).map fun t => vdot t.V1 (vcross t.V2 t.V3)).sum =
        (1 / b.VoxelsPerMM) ^ 2 / 2 *
          (((cc b k).X * (((bi (blockBits b k) 0 : Int) : ℚ) - ((bi (blockBits b k) 1 : Int) : ℚ)) +
            (cc b k).X * (((bi (blockBits b k) 3 : Int) : ℚ) - ((bi (blockBits b k) 2 : Int) : ℚ)) +
            (cc b k).X * (((bi (blockBits b k) 4 : Int) : ℚ) - ((bi (blockBits b k) 5 : Int) : ℚ)) +
            (cc b k).X * (((bi (blockBits b k) 7 : Int) : ℚ) - ((bi (blockBits b k) 6 : Int) : ℚ))) +
           ((cc b k).Y * (((bi (blockBits b k) 3 : Int) : ℚ) - ((bi (blockBits b k) 0 : Int) : ℚ)) +
            (cc b k).Y * (((bi (blockBits b k) 2 : Int) : ℚ) - ((bi (blockBits b k) 1 : Int) : ℚ)) +
            (cc b k).Y * (((bi (blockBits b k) 7 : Int) : ℚ) - ((bi (blockBits b k) 4 : Int) : ℚ)) +
            (cc b k).Y * (((bi (blockBits b k) 6 : Int) : ℚ) - ((bi (blockBits b k) 5 : Int) : ℚ))) +
           ((cc b k).Z * (((bi (blockBits b k) 0 : Int) : ℚ) - ((bi (blockBits b k) 4 : Int) : ℚ)) +
            (cc b k).Z * (((bi (blockBits b k) 1 : Int) : ℚ) - ((bi (blockBits b k) 5 : Int) : ℚ)) +
            (cc b k).Z * (((bi (blockBits b k) 2 : Int) : ℚ) - ((bi (blockBits b k) 6 : Int) : ℚ)) +
            (cc b k).Z * (((bi (blockBits b k) 3 : Int) : ℚ) - ((bi (blockBits b k) 7 : Int) : ℚ)))) := by
      intro k _
      obtain ⟨a0, ax, ay, az⟩ := wc_area _ (List.mem_range.mpr (blockBits_lt b k)) (wcBlock_of hwc k) (ht k)
      rw [cellTris_rat b k (blockBits_lt b k), cell_volume b k _ a0, ax, ay, az]
      push_cast
      ring
    rw [Finset.sum_congr rfl hcell, ← Finset.mul_sum]
    simp only [Finset.sum_add_distrib]
    have hx : ∀ i j, i < 8 → j < 8 → cornerOff j = (cornerOff i).shift 1 0 0 →
        ∑ k ∈ ks.toFinset, (cc b k).X * (((bi (blockBits b k) i : Int) : ℚ) - ((bi (blockBits b k) j : Int) : ℚ)) =
        (1 / b.VoxelsPerMM) * vox.toFinset.card := by
      intro i j hi hj ho
      apply parts_sum b _ _ hS hV hi hj (fun k => (cc b k).X)
      intro v
      rw [ho]
      unfold cc halfPoint Key.shift
      dsimp only
      push_cast
      ring
    have hy : ∀ i j, i < 8 → j < 8 → cornerOff j = (cornerOff i).shift 0 1 0 →
        ∑ k ∈ ks.toFinset, (cc b k).Y * (((bi (blockBits b k) i : Int) : ℚ) - ((bi (blockBits b k) j : Int) : ℚ)) =
        (1 / b.VoxelsPerMM) * vox.toFinset.card := by
      intro i j hi hj ho
      apply parts_sum b _ _ hS hV hi hj (fun k => (cc b k).Y)
      intro v
      rw [ho]
      unfold cc halfPoint Key.shift
      dsimp only
      push_cast
      ring
    have hz : ∀ i j, i < 8 → j < 8 → cornerOff j = (cornerOff i).shift 0 0 1 →
        ∑ k ∈ ks.toFinset, (cc b k).Z * (((bi (blockBits b k) i : Int) : ℚ) - ((bi (blockBits b k) j : Int) : ℚ)) =
        (1 / b.VoxelsPerMM) * vox.toFinset.card := by
      intro i j hi hj ho
      apply parts_sum b _ _ hS hV hi hj (fun k => (cc b k).Z)
      intro v
      rw [ho]
      unfold cc halfPoint Key.shift
      dsimp only
      push_cast
      ring
    rw [hx 0 1 (by decide) (by decide) (by decide), hx 3 2 (by decide) (by decide) (by decide),
      hx 4 5 (by decide) (by decide) (by decide), hx 7 6 (by decide) (by decide) (by decide),
      hy 3 0 (by decide) (by decide) (by decide), hy 2 1 (by decide) (by decide) (by decide),
      hy 7 4 (by decide) (by decide) (by decide), hy 6 5 (by decide) (by decide) (by decide),
      hz 0 4 (by decide) (by decide) (by decide), hz 1 5 (by decide) (by decide) (by decide),
      hz 2 6 (by decide) (by decide) (by decide), hz 3 7 (by decide) (by decide) (by decide),
      List.toFinset_card_of_nodup hnd]
    ring
  unfold volume
  rw [hsum]
  ring

/-! ## Skin -/

theorem halfPoint_shift (b : BinVOX ℚ) (k u : Key) :
    halfPoint b (u.shift (2 * k.X) (2 * k.Y) (2 * k.Z)) =
      ⟨((k.X : ℚ) + 1 + u.X / 2) * (1 / b.VoxelsPerMM) + b.TX,
       ((k.Y : ℚ) + u.Y / 2) * (1 / b.VoxelsPerMM) + b.TY,
       ((k.Z : ℚ) + 1 + u.Z / 2) * (1 / b.VoxelsPerMM) + b.TZ⟩ := by
  unfold halfPoint Key.shift
  dsimp only
  push_cast
  congr 1 <;> ring

theorem centroid_half (b : BinVOX ℚ) (k : Key) (t : Tri Key) :
    centroid (mapT (halfPoint b) (shiftT k t)) =
      ⟨((k.X : ℚ) + 1 + (kCent t).X / 6) * (1 / b.VoxelsPerMM) + b.TX,
       ((k.Y : ℚ) + (kCent t).Y / 6) * (1 / b.VoxelsPerMM) + b.TY,
       ((k.Z : ℚ) + 1 + (kCent t).Z / 6) * (1 / b.VoxelsPerMM) + b.TZ⟩ := by
  unfold centroid mapT shiftT kCent kSum
  dsimp only
  rw [halfPoint_shift, halfPoint_shift, halfPoint_shift]
  simp only [List.map_cons, List.map_nil, List.sum_cons, List.sum_nil]
  push_cast
  congr 1 <;> ring

/-- One axis: a point on the corner's side of the centre, at most half a voxel away. -/
theorem axis_in {c o : Int} (ho : o = 0 ∨ o = 1) (h3 : -3 ≤ c ∧ c ≤ 3) (h : 0 ≤ c * (2 * o - 1)) :
    ((o : ℚ)) ≤ 1 + (c : ℚ) / 6 ∧ 1 + (c : ℚ) / 6 ≤ o + 1 := by
  rcases ho with rfl | rfl
  · have : c ≤ 0 := by omega
    have h1 : (c : ℚ) ≤ 0 := by exact_mod_cast this
    have h2 : (-3 : ℚ) ≤ c := by exact_mod_cast h3.1
    push_cast
    constructor <;> linarith
  · have : 0 ≤ c := by omega
    have h1 : (0 : ℚ) ≤ c := by exact_mod_cast this
    have h2 : (c : ℚ) ≤ 3 := by exact_mod_cast h3.2
    push_cast
    constructor <;> linarith

theorem kCent_small {n : Nat} (hn : n < 256) {t : Tri Key} (ht : t ∈ gridTris n) :
    (-3 ≤ (kCent t).X ∧ (kCent t).X ≤ 3) ∧ (-3 ≤ (kCent t).Y ∧ (kCent t).Y ≤ 3) ∧
    (-3 ≤ (kCent t).Z ∧ (kCent t).Z ≤ 3) := by
  obtain ⟨h1, h2, h3⟩ := grid_small n (List.mem_range.mpr hn) t ht
  have h1 := of_decide_eq_true h1
  have h2 := of_decide_eq_true h2
  have h3 := of_decide_eq_true h3
  unfold kCent kSum
  simp only [List.map_cons, List.map_nil, List.sum_cons, List.sum_nil]
  omega

theorem inCube_corner (b : BinVOX ℚ) (hp : 0 < b.VoxelsPerMM) (k : Key) {n : Nat} (hn : n < 256)
    {t : Tri Key} (ht : t ∈ gridTris n) {i : Nat} (hi : i < 8)
    (hx : 0 ≤ (kCent t).X * (cpos i).X) (hy : 0 ≤ (kCent t).Y * (cpos i).Y)
    (hz : 0 ≤ (kCent t).Z * (cpos i).Z) :
    InCube b (corner k i) (centroid (mapT (halfPoint b) (shiftT k t))) := by
  obtain ⟨c1, c2, c3⟩ := kCent_small hn ht
  obtain ⟨i1, i2, i3, i4, i5, i6⟩ := off_range i (List.mem_range.mpr hi)
  have hm : (0 : ℚ) ≤ 1 / b.VoxelsPerMM := le_of_lt (one_div_pos.mpr hp)
  have ax := axis_in (c := (kCent t).X) (o := (cornerOff i).X) (by omega) c1 hx
  have ay := axis_in (c := (kCent t).Y) (o := (cornerOff i).Y + 1) (by omega) c2 (by
    have : (cpos i).Y = 2 * ((cornerOff i).Y + 1) - 1 := by unfold cpos; dsimp only; ring
    rw [← this]; exact hy)
  have az := axis_in (c := (kCent t).Z) (o := (cornerOff i).Z) (by omega) c3 hz
  rw [centroid_half]
  unfold InCube corner Key.shift
  dsimp only
  push_cast at *
  generalize 1 / b.VoxelsPerMM = m at *
  refine ⟨?_, ?_, ?_, ?_, ?_, ?_⟩ <;> apply add_le_add_left <;> apply mul_le_mul_of_nonneg_right _ hm <;>
    linarith [ax.1, ax.2, ay.1, ay.2, az.1, az.2]

/-- **C71.** For a well-composed model without twisted chains every triangle of the mesh is a piece of
    the skin of the voxels: axis-aligned, on the common face of a voxel in the model and one outside,
    facing the one outside. -/
theorem manifold_skin {b : BinVOX ℚ} (hp : 0 < b.VoxelsPerMM) {tris : List (Tri (Vec ℚ))}
    (h : ManifoldRun b tris) (hwc : WellComposed b) (ht : ∀ k, blockBits b k ∉ twistedChains) :
    ∀ t ∈ tris, OnSkin b t := by
  obtain ⟨wo, co, ord, hw, hc, ho, rfl⟩ := h
  obtain ⟨e1, n1, m1⟩ := ord_eq b hw hc ho
  rw [e1]
  intro t htm
  rw [List.mem_flatMap] at htm
  obtain ⟨e, he, hte⟩ := htm
  obtain ⟨k, -, rfl⟩ := List.mem_map.mp he
  have hb := blockBits_lt b k
  rw [cellTris_rat b k hb, List.mem_map] at hte
  obtain ⟨s, hs, rfl⟩ := hte
  obtain ⟨i, hi, j, hj, bi, bj, hu, hpos, hn, x1, y1, z1, x2, y2, z2⟩ :=
    wc_skin _ (List.mem_range.mpr hb) (wcBlock_of hwc k) (ht k) s hs
  have hi8 := List.mem_range.mp hi
  have hj8 := List.mem_range.mp hj
  have hstep : step (corner k i) (kSub (cornerOff j) (cornerOff i)) = corner k j := by
    unfold step corner kSub Key.shift
    dsimp only
    congr 1 <;> ring
  refine ⟨corner k i, kSub (cornerOff j) (cornerOff i), hu, ?_, ?_, ?_, ?_, ?_⟩
  · rw [blockBits_bit b k i hi8] at bi
    exact bi
  · rw [hstep]
    rw [blockBits_bit b k j hj8] at bj
    unfold Present
    unfold pres at bj
    rw [bj]
    decide
  · exact inCube_corner b hp k hb hs hi8 x1 y1 z1
  · rw [hstep]
    exact inCube_corner b hp k hb hs hj8 x2 y2 z2
  · have hm : (0 : ℚ) < 1 / b.VoxelsPerMM := one_div_pos.mpr hp
    refine ⟨(1 / b.VoxelsPerMM) ^ 2 / 4 * (kDot (kNormal s) (kSub (cornerOff j) (cornerOff i)) : Int), ?_, ?_⟩
    · have : (0 : ℚ) < (kDot (kNormal s) (kSub (cornerOff j) (cornerOff i)) : Int) := by exact_mod_cast hpos
      positivity
    · rw [normal_half]
      have hX := congrArg Key.X hn
      have hY := congrArg Key.Y hn
      have hZ := congrArg Key.Z hn
      dsimp only at hX hY hZ
      generalize kDot (kNormal s) (kSub (cornerOff j) (cornerOff i)) = d at *
      generalize kSub (cornerOff j) (cornerOff i) = o at *
      rw [hX, hY, hZ]
      push_cast
      congr 1 <;> ring

/-! ## Area -/

theorem axisArea_half (b : BinVOX ℚ) (k : Key) (t : Tri Key) :
    axisArea (mapT (halfPoint b) (shiftT k t)) =
      (1 / b.VoxelsPerMM) ^ 2 / 8 *
        ((|(kNormal t).X| + |(kNormal t).Y| + |(kNormal t).Z| : Int) : ℚ) := by
  unfold axisArea
  rw [normal_half]
  dsimp only
  have h : (0 : ℚ) ≤ (1 / b.VoxelsPerMM) ^ 2 / 4 := by positivity
  rw [abs_mul, abs_mul, abs_mul, abs_of_nonneg h]
  push_cast
  ring

theorem cell_area (b : BinVOX ℚ) (k : Key) (l : List (Tri Key)) :
    ((l.map fun t => mapT (halfPoint b) (shiftT k t)).map axisArea).sum =
      (1 / b.VoxelsPerMM) ^ 2 / 8 *
        (((l.map fun t => |(kNormal t).X| + |(kNormal t).Y| + |(kNormal t).Z|).sum : Int) : ℚ) := by
  induction l with
  | nil => simp
  | cons t l ih =>
    rw [List.map_cons, List.map_cons, List.sum_cons, ih, axisArea_half]
    simp only [List.map_cons, List.sum_cons]
    push_cast
    ring

/-- 1 if `v` is in the model and `v + d` is not. -/
def open' (b : BinVOX ℚ) (d : Key) (v : Key) : ℚ :=
  if pres b v = true ∧ pres b (step v d) = false then 1 else 0

theorem mixed_open (b : BinVOX ℚ) (k : Key) {i j : Nat} (hi : i < 8) (hj : j < 8) :
    ((mixed (blockBits b k) i j : Int) : ℚ) =
      open' b (kSub (cornerOff j) (cornerOff i)) (corner k i) +
      open' b (kSub (cornerOff i) (cornerOff j)) (corner k j) := by
  have h1 : step (corner k i) (kSub (cornerOff j) (cornerOff i)) = corner k j := by
    unfold step corner kSub Key.shift
    dsimp only
    congr 1 <;> ring
  have h2 : step (corner k j) (kSub (cornerOff i) (cornerOff j)) = corner k i := by
    unfold step corner kSub Key.shift
    dsimp only
    congr 1 <;> ring
  unfold mixed open'
  rw [h1, h2, blockBits_bit b k i hi, blockBits_bit b k j hj]
  cases pres b (corner k i) <;> cases pres b (corner k j) <;> simp

theorem mixed_sum (b : BinVOX ℚ) (S V : Finset Key)
    (hS : ∀ k, (∃ i < 8, Present b (corner k i)) → k ∈ S) (hV : ∀ v, v ∈ V ↔ Present b v)
    {i j : Nat} (hi : i < 8) (hj : j < 8) :
    ∑ k ∈ S, ((mixed (blockBits b k) i j : Int) : ℚ) =
      ∑ v ∈ V, open' b (kSub (cornerOff j) (cornerOff i)) v +
      ∑ v ∈ V, open' b (kSub (cornerOff i) (cornerOff j)) v := by
  rw [Finset.sum_congr rfl (fun k _ => mixed_open b k hi hj), Finset.sum_add_distrib]
  congr 1
  · apply ind_shift_sum b S V hS hV hi
    intro v hv
    unfold open'
    simp [hv]
  · apply ind_shift_sum b S V hS hV hj
    intro v hv
    unfold open'
    simp [hv]

open Classical in
/-- **C71.** The total area of the mesh is exactly that of the faces between a voxel in the model and
    one outside. -/
theorem manifold_area {b : BinVOX ℚ} {tris : List (Tri (Vec ℚ))} (h : ManifoldRun b tris)
    (hwc : WellComposed b) (ht : ∀ k, blockBits b k ∉ twistedChains)
    {vox : List Key} (hnd : vox.Nodup) (hvox : ∀ k, k ∈ vox ↔ Present b k) :
    (tris.map axisArea).sum =
      (1 / b.VoxelsPerMM) ^ 2 *
        (vox.map fun u => (unitSteps.filter fun d => ¬ Present b (step u d)).length).sum := by
  obtain ⟨wo, co, ord, hw, hc, ho, rfl⟩ := h
  obtain ⟨e1, n1, m1⟩ := ord_eq b hw hc ho
  generalize ord.map Prod.fst = ks at e1 n1 m1
  have hS : ∀ k, (∃ i < 8, Present b (corner k i)) → k ∈ ks.toFinset := fun k hk =>
    List.mem_toFinset.mpr ((m1 k).mpr hk)
  have hV : ∀ v, v ∈ vox.toFinset ↔ Present b v := fun v => List.mem_toFinset.trans (hvox v)
  have hms := fun {i j : Nat} (hi : i < 8) (hj : j < 8) => mixed_sum b _ _ hS hV hi hj
  rw [e1, List.flatMap_map, sum_flatMap, ← List.sum_toFinset _ n1]
  have hcell : ∀ k ∈ ks.toFinset, ((cellTris b (k, blockBits b k)).map axisArea).sum =
      (1 / b.VoxelsPerMM) ^ 2 / 4 *
        (((((mixed (blockBits b k) 0 1 : Int) : ℚ) + ((mixed (blockBits b k) 3 2 : Int) : ℚ) +
          ((mixed (blockBits b k) 4 5 : Int) : ℚ) + ((mixed (blockBits b k) 7 6 : Int) : ℚ)) +
         (((mixed (blockBits b k) 3 0 : Int) : ℚ) + ((mixed (blockBits b k) 2 1 : Int) : ℚ) +
          ((mixed (blockBits b k) 7 4 : Int) : ℚ) + ((mixed (blockBits b k) 6 5 : Int) : ℚ)) +
         (((mixed (blockBits b k) 0 4 : Int) : ℚ) + ((mixed (blockBits b k) 1 5 : Int) : ℚ) +
          ((mixed (blockBits b k) 2 6 : Int) : ℚ) + ((mixed (blockBits b k) 3 7 : Int) : ℚ)))) := by
    intro k _
    rw [cellTris_rat b k (blockBits_lt b k), cell_area b k,
      wc_total _ (List.mem_range.mpr (blockBits_lt b k)) (wcBlock_of hwc k) (ht k)]
    push_cast
    ring
  rw [Finset.sum_congr rfl hcell, ← Finset.mul_sum]
  simp only [Finset.sum_add_distrib]
  rw [hms (i := 0) (j := 1) (by decide) (by decide), hms (i := 3) (j := 2) (by decide) (by decide),
    hms (i := 4) (j := 5) (by decide) (by decide), hms (i := 7) (j := 6) (by decide) (by decide),
    hms (i := 3) (j := 0) (by decide) (by decide), hms (i := 2) (j := 1) (by decide) (by decide),
    hms (i := 7) (j := 4) (by decide) (by decide), hms (i := 6) (j := 5) (by decide) (by decide),
    hms (i := 0) (j := 4) (by decide) (by decide), hms (i := 1) (j := 5) (by decide) (by decide),
    hms (i := 2) (j := 6) (by decide) (by decide), hms (i := 3) (j := 7) (by decide) (by decide)]
  rw [show kSub (cornerOff 1) (cornerOff 0) = ⟨1, 0, 0⟩ by decide,
    show kSub (cornerOff 0) (cornerOff 1) = ⟨-1, 0, 0⟩ by decide,
    show kSub (cornerOff 2) (cornerOff 3) = ⟨1, 0, 0⟩ by decide,
    show kSub (cornerOff 3) (cornerOff 2) = ⟨-1, 0, 0⟩ by decide,
    show kSub (cornerOff 5) (cornerOff 4) = ⟨1, 0, 0⟩ by decide,
    show kSub (cornerOff 4) (cornerOff 5) = ⟨-1, 0, 0⟩ by decide,
    show kSub (cornerOff 6) (cornerOff 7) = ⟨1, 0, 0⟩ by decide,
    show kSub (cornerOff 7) (cornerOff 6) = ⟨-1, 0, 0⟩ by decide,
    show kSub (cornerOff 0) (cornerOff 3) = ⟨0, 1, 0⟩ by decide,
    show kSub (cornerOff 3) (cornerOff 0) = ⟨0, -1, 0⟩ by decide,
    show kSub (cornerOff 1) (cornerOff 2) = ⟨0, 1, 0⟩ by decide,
    show kSub (cornerOff 2) (cornerOff 1) = ⟨0, -1, 0⟩ by decide,
    show kSub (cornerOff 4) (cornerOff 7) = ⟨0, 1, 0⟩ by decide,
    show kSub (cornerOff 7) (cornerOff 4) = ⟨0, -1, 0⟩ by decide,
    show kSub (cornerOff 5) (cornerOff 6) = ⟨0, 1, 0⟩ by decide,
    show kSub (cornerOff 6) (cornerOff 5) = ⟨0, -1, 0⟩ by decide,
    show kSub (cornerOff 4) (cornerOff 0) = ⟨0, 0, 1⟩ by decide,
    show kSub (cornerOff 0) (cornerOff 4) = ⟨0, 0, -1⟩ by decide,
    show kSub (cornerOff 5) (cornerOff 1) = ⟨0, 0, 1⟩ by decide,
    show kSub (cornerOff 1) (cornerOff 5) = ⟨0, 0, -1⟩ by decide,
    show kSub (cornerOff 6) (cornerOff 2) = ⟨0, 0, 1⟩ by decide,
    show kSub (cornerOff 2) (cornerOff 6) = ⟨0, 0, -1⟩ by decide,
    show kSub (cornerOff 7) (cornerOff 3) = ⟨0, 0, 1⟩ by decide,
    show kSub (cornerOff 3) (cornerOff 7) = ⟨0, 0, -1⟩ by decide]
  have hper : ∀ u ∈ vox.toFinset,
      (((unitSteps.filter fun d => ¬ Present b (step u d)).length : ℕ) : ℚ) =
        open' b ⟨1, 0, 0⟩ u + open' b ⟨-1, 0, 0⟩ u + open' b ⟨0, 1, 0⟩ u + open' b ⟨0, -1, 0⟩ u +
        open' b ⟨0, 0, 1⟩ u + open' b ⟨0, 0, -1⟩ u := by
    intro u hu
    have hpu : pres b u = true := (hV u).mp hu
    have key : ∀ l : List Key, (((l.filter fun d => ¬ Present b (step u d)).length : ℕ) : ℚ) =
        (l.map fun d => open' b d u).sum := by
      intro l
      induction l with
      | nil => simp
      | cons d l ih =>
        rw [List.filter_cons, List.map_cons, List.sum_cons, ← ih]
        unfold open'
        by_cases hd : Present b (step u d)
        · have : pres b (step u d) = true := hd
          simp [hd, this]
        · have : pres b (step u d) = false := by
            unfold Present at hd
            simpa [pres] using hd
          simp [hd, this, hpu, add_comm]
    rw [key]
    unfold unitSteps
    simp only [List.map_cons, List.map_nil, List.sum_cons, List.sum_nil]
    ring
  rw [← List.sum_toFinset _ hnd]
  push_cast
  rw [Finset.sum_congr rfl hper]
  simp only [Finset.sum_add_distrib]
  ring

end Manifold
end StlDice
