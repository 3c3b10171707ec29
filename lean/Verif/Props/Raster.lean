import Verif.Model.Voxelize
import Mathlib.Data.List.Chain
import Mathlib.Tactic.Linarith
import Mathlib.Tactic.Ring

/-! # Line rasterisation (C31) -/

namespace StlDice
namespace Spec

/-- `l` is a gap-free digital straight line from `p` to `q`: it starts at `p`, ends at `q`, every
    step moves to one of the 8 neighbouring cells, it has one point per unit of the longer
    axis, stays in the bounding box of `p` and `q`, and is at most half a cell away from the exact
    line, measured along the shorter axis
    (`2*|dx*(y-y1) - dy*(x-x1)| ≤ max |dx| |dy|`). -/
structure DigitalLine (p q : Int × Int) (l : List (Int × Int)) : Prop where
  first : l.head? = some p
  last : l.getLast? = some q
  steps : l.IsChain fun a b => max |b.1 - a.1| |b.2 - a.2| = 1
  count : (l.length : Int) = max |q.1 - p.1| |q.2 - p.2| + 1
  boxX : ∀ a ∈ l, min p.1 q.1 ≤ a.1 ∧ a.1 ≤ max p.1 q.1
  boxY : ∀ a ∈ l, min p.2 q.2 ≤ a.2 ∧ a.2 ≤ max p.2 q.2
  near : ∀ a ∈ l, 2 * |(q.1 - p.1) * (a.2 - p.2) - (q.2 - p.2) * (a.1 - p.1)|
    ≤ max |q.1 - p.1| |q.2 - p.2|

end Spec

open Spec

theorem bresLoop_eq (dx dy : Int) (h0 : 0 ≤ dy) (h1 : dy ≤ dx) (hdx : 0 < dx) (n : Nat) :
    ∀ (x y e : Int), -dx ≤ 2 * e → 2 * e < dx →
      bresLoop dx dy n x y e =
        (List.range n).map fun i : Nat => (x + i, y + (2 * (e + dy * i) + dx) / (2 * dx)) := by
  induction n with
  | zero => intros; rfl
  | succ n ih =>
    intro x y e hl hu
    rw [List.range_succ_eq_map, List.map_cons, List.map_map]
    unfold bresLoop
    have hz : (2 * (e + dy * ((0 : Nat) : Int)) + dx) / (2 * dx) = 0 := by
      apply Int.ediv_eq_zero_of_lt <;> push_cast <;> omega
    rw [hz]
    have hx : x + ((0 : Nat) : Int) = x := by simp
    have hy : y + 0 = y := by omega
    rw [hx, hy]
    refine congrArg _ ?_
    split
    · rename_i hc
      rw [ih (x + 1) (y + 1) (e + dy - dx) (by omega) (by omega)]
      apply List.map_congr_left
      intro i _
      have e1 : 2 * (e + dy * ((Nat.succ i : Nat) : Int)) + dx
          = (2 * (e + dy - dx + dy * (i : Int)) + dx) + 1 * (2 * dx) := by push_cast; ring
      have e2 := Int.add_mul_ediv_right (2 * (e + dy - dx + dy * (i : Int)) + dx) 1
        (show (2 * dx) ≠ 0 by omega)
      show (_, _) = (_, _)
      rw [e1, e2]
      refine Prod.ext ?_ ?_
      · show x + 1 + (i : Int) = x + ((Nat.succ i : Nat) : Int)
        push_cast; omega
      · show y + 1 + _ = y + (_ + 1)
        omega
    · rename_i hc
      rw [ih (x + 1) y (e + dy) (by omega) (by omega)]
      apply List.map_congr_left
      intro i _
      have e1 : 2 * (e + dy * ((Nat.succ i : Nat) : Int)) + dx
          = (2 * (e + dy + dy * (i : Int)) + dx) := by push_cast; ring
      show (_, _) = (_, _)
      rw [e1]
      refine Prod.ext ?_ rfl
      show x + 1 + (i : Int) = x + ((Nat.succ i : Nat) : Int)
      push_cast; omega

/-- Exactly the points of the first octant routine: column `i` gets the height of the exact line
    rounded to the nearest integer (halves up). -/
theorem firstOctant_eq (x1 y1 x2 y2 : Int) (h0 : y1 ≤ y2) (h1 : y2 - y1 ≤ x2 - x1) :
    firstOctant x1 y1 x2 y2 = (List.range (x2 - x1 + 1).toNat).map fun i : Nat =>
      (x1 + i, y1 + (2 * ((y2 - y1) * i) + (x2 - x1)) / (2 * (x2 - x1))) := by
  unfold firstOctant
  by_cases hd : x2 - x1 = 0
  · have h2 : y2 - y1 = 0 := by omega
    rw [hd, h2]
    have h1' : (0 + 1 : Int).toNat = 1 := rfl
    rw [h1']
    simp [bresLoop]
  · rw [bresLoop_eq (x2 - x1) (y2 - y1) (by omega) h1 (by omega) _ x1 y1 0 (by omega) (by omega)]
    apply List.map_congr_left
    intro i _
    rw [Int.zero_add]

theorem bres_round (dx dy i : Int) (hdx : 0 < dx) :
    2 * (dy * i) - dx < 2 * dx * ((2 * (dy * i) + dx) / (2 * dx)) ∧
      2 * dx * ((2 * (dy * i) + dx) / (2 * dx)) ≤ 2 * (dy * i) + dx := by
  have h1 := Int.mul_ediv_add_emod (2 * (dy * i) + dx) (2 * dx)
  have h2 := Int.emod_nonneg (2 * (dy * i) + dx) (show (2 * dx) ≠ 0 by omega)
  have h3 := Int.emod_lt_of_pos (2 * (dy * i) + dx) (show 0 < 2 * dx by omega)
  constructor <;> omega

theorem firstOctant_line (x1 y1 x2 y2 : Int) (h0 : y1 ≤ y2) (h1 : y2 - y1 ≤ x2 - x1) :
    DigitalLine (x1, y1) (x2, y2) (firstOctant x1 y1 x2 y2) := by
  rw [firstOctant_eq x1 y1 x2 y2 h0 h1]
  have hx : x1 ≤ x2 := by omega
  obtain ⟨N, hN⟩ : ∃ N : Nat, x2 - x1 = N := ⟨(x2 - x1).toNat, by omega⟩
  obtain ⟨M, hM⟩ : ∃ M : Nat, y2 - y1 = M := ⟨(y2 - y1).toNat, by omega⟩
  have hx2 : x2 = x1 + N := by omega
  have hy2 : y2 = y1 + M := by omega
  have hlen : (x2 - x1 + 1).toNat = N + 1 := by omega
  rw [hlen, hN, hM]
  have hMN : M ≤ N := by omega
  have habsx : |x2 - x1| = N := by rw [hN]; exact abs_of_nonneg (by omega)
  have habsy : |y2 - y1| = M := by rw [hM]; exact abs_of_nonneg (by omega)
  have hmax : max |x2 - x1| |y2 - y1| = (N : Int) := by rw [habsx, habsy]; omega
  -- facts on the rounded height
  have hr : ∀ i : Nat, i ≤ N →
      0 ≤ (2 * ((M : Int) * i) + N) / (2 * N) ∧ (2 * ((M : Int) * i) + N) / (2 * N) ≤ M := by
    intro i hi
    by_cases hN0 : N = 0
    · subst hN0; simp
    · have hp : (0 : Int) < N := by omega
      constructor
      · apply Int.ediv_nonneg
        · have : (0 : Int) ≤ (M : Int) * i := by positivity
          omega
        · omega
      · apply Int.lt_add_one_iff.mp
        apply Int.ediv_lt_of_lt_mul (by omega)
        have : (M : Int) * i ≤ M * N := by
          apply mul_le_mul_of_nonneg_left <;> omega
        have e : ((M : Int) + 1) * (2 * N) = 2 * (M * N) + 2 * N := by ring
        rw [e]
        omega
  have hstep : ∀ i : Nat, i + 1 ≤ N →
      (2 * ((M : Int) * i) + N) / (2 * N) ≤ (2 * ((M : Int) * ((i + 1 : Nat) : Int)) + N) / (2 * N) ∧
      (2 * ((M : Int) * ((i + 1 : Nat) : Int)) + N) / (2 * N) ≤ (2 * ((M : Int) * i) + N) / (2 * N) + 1 := by
    intro i hi
    have hp : (0 : Int) < N := by omega
    have e : (M : Int) * ((i + 1 : Nat) : Int) = M * i + M := by push_cast; ring
    rw [e]
    constructor
    · apply Int.ediv_le_ediv (by omega)
      omega
    · have e2 := Int.add_mul_ediv_right (2 * ((M : Int) * i) + N) 1 (show (2 * (N : Int)) ≠ 0 by omega)
      rw [← e2]
      apply Int.ediv_le_ediv (by omega)
      omega
  refine ⟨?_, ?_, ?_, ?_, ?_, ?_, ?_⟩
  · rw [List.range_succ_eq_map]
    simp only [List.map_cons, List.head?_cons]
    have : (2 * ((M : Int) * ((0 : Nat) : Int)) + N) / (2 * N) = 0 := by
      by_cases hN0 : N = 0
      · subst hN0; simp
      · apply Int.ediv_eq_zero_of_lt <;> push_cast <;> omega
    rw [this]
    simp
  · rw [List.range_succ, List.map_append, List.map_cons, List.map_nil, List.getLast?_concat]
    have : (2 * ((M : Int) * (N : Int)) + N) / (2 * N) = M := by
      by_cases hN0 : N = 0
      · subst hN0
        have : M = 0 := by omega
        subst this; simp
      · have e : 2 * ((M : Int) * (N : Int)) + N = N + M * (2 * N) := by ring
        rw [e, Int.add_mul_ediv_right _ _ (show (2 * (N : Int)) ≠ 0 by omega)]
        rw [Int.ediv_eq_zero_of_lt (by omega) (by omega)]
        omega
    rw [this, hx2, hy2]
  · rw [List.isChain_map]
    rw [List.isChain_iff_getElem]
    intro i hi
    simp only [List.length_range] at hi
    simp only [List.getElem_range]
    obtain ⟨s1, s2⟩ := hstep i (by omega)
    generalize (2 * ((M : Int) * ((i + 1 : Nat) : Int)) + N) / (2 * N) = u at s1 s2 ⊢
    generalize (2 * ((M : Int) * i) + N) / (2 * N) = v at s1 s2 ⊢
    have a1 : |x1 + ((i + 1 : Nat) : Int) - (x1 + (i : Int))| = 1 := by
      rw [show x1 + ((i + 1 : Nat) : Int) - (x1 + (i : Int)) = 1 by push_cast; omega]; rfl
    have a2 : |y1 + u - (y1 + v)| ≤ 1 := by
      rw [abs_le]; constructor <;> omega
    rw [a1]
    exact max_eq_left a2
  · rw [List.length_map, List.length_range]
    show ((N + 1 : Nat) : Int) = max |x2 - x1| |y2 - y1| + 1
    rw [hmax]; push_cast; rfl
  · intro a ha
    obtain ⟨i, hi, rfl⟩ := List.mem_map.mp ha
    rw [List.mem_range] at hi
    show min x1 x2 ≤ x1 + (i : Int) ∧ x1 + (i : Int) ≤ max x1 x2
    omega
  · intro a ha
    obtain ⟨i, hi, rfl⟩ := List.mem_map.mp ha
    rw [List.mem_range] at hi
    obtain ⟨r1, r2⟩ := hr i (by omega)
    show min y1 y2 ≤ y1 + _ ∧ y1 + _ ≤ max y1 y2
    omega
  · intro a ha
    obtain ⟨i, hi, rfl⟩ := List.mem_map.mp ha
    rw [List.mem_range] at hi
    show 2 * |(x2 - x1) * (y1 + _ - y1) - (y2 - y1) * (x1 + (i : Int) - x1)| ≤ max |x2 - x1| |y2 - y1|
    rw [hmax, hN, hM]
    by_cases hN0 : N = 0
    · have : i = 0 := by omega
      subst this; subst hN0; simp
    · obtain ⟨b1, b2⟩ := bres_round N M i (by omega)
      generalize (2 * ((M : Int) * i) + N) / (2 * N) = u at b1 b2 ⊢
      have e1 : (N : Int) * (y1 + u - y1) = N * u := by ring
      have e2 : (M : Int) * (x1 + (i : Int) - x1) = M * i := by ring
      have e3 : 2 * (N : Int) * u = 2 * (N * u) := by ring
      rw [e1, e2]
      rw [e3] at b1 b2
      have : |(N : Int) * u - M * i| * 2 ≤ N := by
        rcases abs_cases ((N : Int) * u - M * i) with h | h <;> omega
      omega

theorem digitalLine_map (g : Int × Int → Int × Int) (p q : Int × Int) (l : List (Int × Int))
    (h : DigitalLine p q l)
    (hs : ∀ a b, max |(g b).1 - (g a).1| |(g b).2 - (g a).2| = max |b.1 - a.1| |b.2 - a.2|)
    (hb : ∀ a, (min p.1 q.1 ≤ a.1 ∧ a.1 ≤ max p.1 q.1) → (min p.2 q.2 ≤ a.2 ∧ a.2 ≤ max p.2 q.2) →
      (min (g p).1 (g q).1 ≤ (g a).1 ∧ (g a).1 ≤ max (g p).1 (g q).1) ∧
      (min (g p).2 (g q).2 ≤ (g a).2 ∧ (g a).2 ≤ max (g p).2 (g q).2))
    (hn : ∀ a, |((g q).1 - (g p).1) * ((g a).2 - (g p).2) - ((g q).2 - (g p).2) * ((g a).1 - (g p).1)|
      = |(q.1 - p.1) * (a.2 - p.2) - (q.2 - p.2) * (a.1 - p.1)|) :
    DigitalLine (g p) (g q) (l.map g) := by
  refine ⟨?_, ?_, ?_, ?_, ?_, ?_, ?_⟩
  · rw [List.head?_map, h.first]; rfl
  · rw [List.getLast?_map, h.last]; rfl
  · rw [List.isChain_map]
    refine h.steps.imp ?_
    intro a b hab
    rw [hs]; exact hab
  · rw [List.length_map, h.count, hs]
  · intro a ha
    obtain ⟨c, hc, rfl⟩ := List.mem_map.mp ha
    exact (hb c (h.boxX c hc) (h.boxY c hc)).1
  · intro a ha
    obtain ⟨c, hc, rfl⟩ := List.mem_map.mp ha
    exact (hb c (h.boxX c hc) (h.boxY c hc)).2
  · intro a ha
    obtain ⟨c, hc, rfl⟩ := List.mem_map.mp ha
    rw [hn, hs]; exact h.near c hc

theorem digitalLine_swap (p q : Int × Int) (l : List (Int × Int)) (h : DigitalLine p q l) :
    DigitalLine (p.2, p.1) (q.2, q.1) (l.map fun a => (a.2, a.1)) := by
  refine digitalLine_map (fun a => (a.2, a.1)) p q l h ?_ ?_ ?_
  · intro a b; exact max_comm _ _
  · intro a h1 h2; exact ⟨h2, h1⟩
  · intro a
    show |(q.2 - p.2) * (a.1 - p.1) - (q.1 - p.1) * (a.2 - p.2)| = _
    rw [abs_sub_comm]

theorem digitalLine_negX (p q : Int × Int) (l : List (Int × Int)) (h : DigitalLine p q l) :
    DigitalLine (-p.1, p.2) (-q.1, q.2) (l.map fun a => (-a.1, a.2)) := by
  have hsub : ∀ a b : Int, -b - -a = -(b - a) := by intros; omega
  refine digitalLine_map (fun a => (-a.1, a.2)) p q l h ?_ ?_ ?_
  · intro a b
    show max |-b.1 - -a.1| _ = _
    rw [hsub, abs_neg]
  · intro a h1 h2
    refine ⟨?_, h2⟩
    show min (-p.1) (-q.1) ≤ -a.1 ∧ -a.1 ≤ max (-p.1) (-q.1)
    omega
  · intro a
    show |(-q.1 - -p.1) * (a.2 - p.2) - (q.2 - p.2) * (-a.1 - -p.1)| = _
    rw [← abs_neg]; congr 1; ring

theorem digitalLine_negY (p q : Int × Int) (l : List (Int × Int)) (h : DigitalLine p q l) :
    DigitalLine (p.1, -p.2) (q.1, -q.2) (l.map fun a => (a.1, -a.2)) := by
  have h1 := digitalLine_swap _ _ _ (digitalLine_negX _ _ _ (digitalLine_swap p q l h))
  rw [List.map_map, List.map_map] at h1
  exact h1

/-- **C31.** For any two grid points, in every octant, the rasteriser plots a gap-free digital line
    from the first to the second. -/
theorem raster_line (x1 y1 x2 y2 : Int) :
    DigitalLine (x1, y1) (x2, y2) (rasterLine x1 y1 x2 y2) := by
  unfold rasterLine
  dsimp only
  split_ifs with c1 c2 c3 c4 c5 c6 c7
  · exact firstOctant_line _ _ _ _ (by omega) (by omega)
  · exact digitalLine_swap _ _ _ (firstOctant_line y1 x1 y2 x2 (by omega) (by omega))
  · have h := digitalLine_negX _ _ _ (digitalLine_swap _ _ _
      (firstOctant_line y1 (-x1) y2 (-x2) (by omega) (by omega)))
    rw [List.map_map] at h
    simp only [neg_neg] at h
    exact h
  · have h := digitalLine_negX _ _ _ (firstOctant_line (-x1) y1 (-x2) y2 (by omega) (by omega))
    simp only [neg_neg] at h
    exact h
  · have h := digitalLine_negY _ _ _ (digitalLine_negX _ _ _
      (firstOctant_line (-x1) (-y1) (-x2) (-y2) (by omega) (by omega)))
    rw [List.map_map] at h
    simp only [neg_neg] at h
    exact h
  · have h := digitalLine_negY _ _ _ (digitalLine_negX _ _ _ (digitalLine_swap _ _ _
      (firstOctant_line (-y1) (-x1) (-y2) (-x2) (by omega) (by omega))))
    rw [List.map_map, List.map_map] at h
    simp only [neg_neg] at h
    exact h
  · have h := digitalLine_negY _ _ _ (digitalLine_swap _ _ _
      (firstOctant_line (-y1) x1 (-y2) x2 (by omega) (by omega)))
    rw [List.map_map] at h
    simp only [neg_neg] at h
    exact h
  · have h := digitalLine_negY _ _ _
      (firstOctant_line x1 (-y1) x2 (-y2) (by omega) (by omega))
    simp only [neg_neg] at h
    exact h

/-- A concrete steep descending line in the seventh octant. -/
example : rasterLine 0 0 2 (-5) = [(0, 0), (0, -1), (1, -2), (1, -3), (2, -4), (2, -5)] := by decide

/-- `firstOctant_eq` on a line. -/
example := firstOctant_eq 0 0 5 2 (by decide) (by decide)

end StlDice
