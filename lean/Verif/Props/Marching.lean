import Verif.Lemmas.Marching
import Verif.Lemmas.GoMap
import Mathlib.Tactic.FieldSimp
import Mathlib.Tactic.NormNum

/-! # Marching cubes: the surface is closed, sits between voxels and faces outwards (C49) -/

namespace StlDice
namespace Marching
open Spec GoFloat BinVOX

/-! ## The maps built by the range loops -/

theorem foldl_set_get {V : Type} (c : V) (l : List Key) (m : GoMap Key V) (k : Key) :
    (l.foldl (fun m v => m.set v c) m).get k = if k ∈ l then some c else m.get k := by
  induction l generalizing m with
  | nil => rw [List.foldl_nil, if_neg (by simp)]
  | cons a l ih =>
    rw [List.foldl_cons, ih, GoMap.get_set]
    have hc : k ∈ a :: l ↔ k = a ∨ k ∈ l := List.mem_cons
    by_cases h1 : k ∈ l
    · rw [if_pos h1, if_pos (List.mem_cons_of_mem _ h1)]
    · rw [if_neg h1]
      by_cases h2 : k = a
      · subst h2; simp
      · rw [if_neg (fun h => h1 (List.mem_of_ne_of_mem h2 h))]
        simp [h2, eq_comm]

theorem foldl_set_WF {V : Type} (c : V) (l : List Key) (m : GoMap Key V) (h : m.WF) :
    (l.foldl (fun m v => m.set v c) m).WF := by
  induction l generalizing m with
  | nil => exact h
  | cons a l ih => exact ih _ (GoMap.WF_set h _ _)

theorem lookup_get {F : Type} [GoFloat F] (vs : List Key) (k : Key) :
    ((lookupOf vs : GoMap Key F).get k).getD (ofInt 0) = if k ∈ vs then ofInt 1 else ofInt 0 := by
  unfold lookupOf
  rw [foldl_set_get]
  split <;> rfl

theorem gridCells_nodup (vs : List Key) : (gridCellsOf vs).keys.Nodup :=
  foldl_set_WF () _ _ GoMap.WF_nil

theorem mem_gridCells (vs : List Key) (k : Key) :
    k ∈ (gridCellsOf vs).keys ↔ ∃ v ∈ vs, k ∈ cellsOf v := by
  rw [GoMap.mem_keys_iff]
  unfold gridCellsOf GoMap.has
  rw [foldl_set_get]
  by_cases h : k ∈ vs.flatMap cellsOf
  · rw [if_pos h]
    simpa using h
  · rw [if_neg h]
    simp only [List.mem_flatMap] at h
    simp [GoMap.get, h]

theorem mem_cellsOf (v k : Key) : k ∈ cellsOf v ↔ ∃ i < 8, corner k i = v := by
  constructor
  · intro h
    unfold cellsOf at h
    simp only [List.mem_cons, List.not_mem_nil, or_false] at h
    rcases h with rfl | rfl | rfl | rfl | rfl | rfl | rfl | rfl
    · exact ⟨0, by decide, by simp [corner, cornerOff, Key.shift]⟩
    · exact ⟨1, by decide, by simp [corner, cornerOff, Key.shift]⟩
    · exact ⟨3, by decide, by simp [corner, cornerOff, Key.shift]⟩
    · exact ⟨2, by decide, by simp [corner, cornerOff, Key.shift]⟩
    · exact ⟨4, by decide, by simp [corner, cornerOff, Key.shift]⟩
    · exact ⟨5, by decide, by simp [corner, cornerOff, Key.shift]⟩
    · exact ⟨7, by decide, by simp [corner, cornerOff, Key.shift]⟩
    · exact ⟨6, by decide, by simp [corner, cornerOff, Key.shift]⟩
  · rintro ⟨i, hi, rfl⟩
    match i, hi with
    | 0, _ => simp [cellsOf, corner, cornerOff, Key.shift]
    | 1, _ => simp [cellsOf, corner, cornerOff, Key.shift]
    | 2, _ => simp [cellsOf, corner, cornerOff, Key.shift]
    | 3, _ => simp [cellsOf, corner, cornerOff, Key.shift]
    | 4, _ => simp [cellsOf, corner, cornerOff, Key.shift]
    | 5, _ => simp [cellsOf, corner, cornerOff, Key.shift]
    | 6, _ => simp [cellsOf, corner, cornerOff, Key.shift]
    | 7, _ => simp [cellsOf, corner, cornerOff, Key.shift]

/-- The cells visited are exactly those with a present corner. -/
theorem mem_gridCells_iff (vs : List Key) (k : Key) :
    k ∈ (gridCellsOf vs).keys ↔ ∃ i < 8, corner k i ∈ vs := by
  rw [mem_gridCells]
  constructor
  · rintro ⟨v, hv, hk⟩
    obtain ⟨i, hi, rfl⟩ := (mem_cellsOf v k).mp hk
    exact ⟨i, hi, hv⟩
  · rintro ⟨i, hi, hv⟩
    exact ⟨_, hv, (mem_cellsOf _ k).mpr ⟨i, hi, rfl⟩⟩

theorem present_iff {F : Type} [GoFloat F] (b : BinVOX F) {wo co : List Key}
    (hw : wo.Perm b.white.keys) (hc : co.Perm b.color.keys) (k : Key) :
    k ∈ wo ++ co ↔ Present b k := by
  rw [List.mem_append, hw.mem_iff, hc.mem_iff, GoMap.mem_keys_iff, GoMap.mem_keys_iff]
  unfold Present BinVOX.Get GoMap.has
  obtain ⟨X, Y, Z⟩ := k
  dsimp only
  generalize b.white.get ⟨X, Y, Z⟩ = w
  generalize b.color.get ⟨X, Y, Z⟩ = c
  cases w <;> cases c <;> simp

/-! ## The tables -/

/-- Every row of the triangle table is a list of complete triangles over edges 0..11, closed by -1
    within its 16 entries. -/
theorem triTable_shape : triTable.length = 256 ∧ ∀ row ∈ triTable, row.length = 16 ∧
    ∃ n ∈ List.range 6, (row.take (3 * n)).all (fun e => 0 ≤ e && e < 12) ∧
      (row.drop (3 * n)).all (fun e => e == -1) ∧ (triLoop row).length = n := by
  decide +kernel

/-- The edge mask marks exactly the edges whose two ends differ. -/
theorem edgeTable_exact : ∀ ci ∈ List.range 256, ∀ e ∈ List.range 12,
    (edgeTable.getD ci 0).testBit e = (ci.testBit (edgeEnds e).1 != ci.testBit (edgeEnds e).2) := by
  decide +kernel

/-- The edges used by the triangles are exactly the marked ones. -/
theorem triTable_edges : ∀ ci ∈ List.range 256,
    (∀ t ∈ symTris ci, t.V1 < 12 ∧ t.V2 < 12 ∧ t.V3 < 12 ∧ (edgeTable.getD ci 0).testBit t.V1 = true ∧
      (edgeTable.getD ci 0).testBit t.V2 = true ∧ (edgeTable.getD ci 0).testBit t.V3 = true) ∧
    (∀ e ∈ List.range 12, (edgeTable.getD ci 0).testBit e = true →
      ∃ t ∈ symTris ci, e = t.V1 ∨ e = t.V2 ∨ e = t.V3) := by
  decide +kernel

theorem triTable_empty : ∀ ci ∈ List.range 256, edgeTable.getD ci 0 = 0 → symTris ci = [] := by
  decide +kernel

/-- The corner of edge `e` that is present (bit clear) and the one that is absent. -/
def inCorner (ci e : Nat) : Nat := if ci.testBit (edgeEnds e).1 then (edgeEnds e).2 else (edgeEnds e).1
def outCorner (ci e : Nat) : Nat := if ci.testBit (edgeEnds e).1 then (edgeEnds e).1 else (edgeEnds e).2

/-- Sum over the three corners of (doubled) normal · (absent − present). -/
def symOut (ci : Nat) (t : Tri Nat) : Int :=
  let n := kCross (kSub (mid t.V2) (mid t.V1)) (kSub (mid t.V3) (mid t.V1))
  kDot n (kSub (cornerOff (outCorner ci t.V1)) (cornerOff (inCorner ci t.V1))) +
  kDot n (kSub (cornerOff (outCorner ci t.V2)) (cornerOff (inCorner ci t.V2))) +
  kDot n (kSub (cornerOff (outCorner ci t.V3)) (cornerOff (inCorner ci t.V3)))

theorem tri_outward : ∀ ci ∈ List.range 256, ∀ t ∈ symTris ci, 0 < symOut ci t := by
  decide +kernel

theorem edge_adjacent : ∀ e ∈ List.range 12,
    (edgeEnds e).1 < 8 ∧ (edgeEnds e).2 < 8 ∧
    ((cornerOff (edgeEnds e).1).X - (cornerOff (edgeEnds e).2).X).natAbs +
    ((cornerOff (edgeEnds e).1).Y - (cornerOff (edgeEnds e).2).Y).natAbs +
    ((cornerOff (edgeEnds e).1).Z - (cornerOff (edgeEnds e).2).Z).natAbs = 1 := by
  decide +kernel

/-! ## Law-free part: which cells, which configuration -/

/-- The two comparisons of corner values with the iso level come out as for real numbers. -/
structure IsoLaws (F : Type) [GoFloat F] : Prop where
  absent : lt (ofInt 0 : F) iso = true
  present : lt (ofInt 1 : F) iso = false

theorem isoLaws_rat : IsoLaws ℚ where
  absent := by
    show decide (((0 : ℤ) : ℚ) < (1 / 2 : ℚ)) = true
    norm_num
  present := by
    show decide (((1 : ℤ) : ℚ) < (1 / 2 : ℚ)) = false
    norm_num

theorem lt_val {F : Type} [GoFloat F] (hl : IsoLaws F) (b : BinVOX F) (vs : List Key) (k : Key) (i : Nat) :
    lt ((cell b (lookupOf vs) k).val i) iso = !decide (corner k i ∈ vs) := by
  show lt (((lookupOf vs : GoMap Key F).get (corner k i)).getD (ofInt 0)) iso = _
  rw [lookup_get]
  by_cases h : corner k i ∈ vs
  · rw [if_pos h, hl.present]; simp [h]
  · rw [if_neg h, hl.absent]; simp [h]

theorem cubeIndex_cell {F : Type} [GoFloat F] (hl : IsoLaws F) (b : BinVOX F) (vs : List Key) (k : Key) :
    cubeIndex (cell b (lookupOf vs) k) = idx (fun v => decide (v ∈ vs)) k := by
  unfold cubeIndex idx
  rw [lt_val hl, lt_val hl, lt_val hl, lt_val hl, lt_val hl, lt_val hl, lt_val hl, lt_val hl]

/-- Two runs on the same model deliver the same triangles, up to order. -/
theorem marching_runs_perm {F : Type} [GoFloat F] {b : BinVOX F} {t1 t2 : List (Tri (Vec F))}
    (h1 : MarchingRun b t1) (h2 : MarchingRun b t2) : t1.Perm t2 := by
  obtain ⟨w1, c1, o1, hw1, hc1, ho1, rfl⟩ := h1
  obtain ⟨w2, c2, o2, hw2, hc2, ho2, rfl⟩ := h2
  have hmem : ∀ k, k ∈ w1 ++ c1 ↔ k ∈ w2 ++ c2 := fun k => by
    rw [present_iff b hw1 hc1, present_iff b hw2 hc2]
  have hcell : ∀ k, cell b (lookupOf (w1 ++ c1)) k = cell b (lookupOf (w2 ++ c2)) k := by
    intro k
    unfold cell
    congr 1
    funext i
    rw [lookup_get, lookup_get]
    simp only [hmem]
  have ho : o1.Perm o2 := by
    refine ho1.trans (List.Perm.trans ?_ ho2.symm)
    rw [List.perm_ext_iff_of_nodup (gridCells_nodup _) (gridCells_nodup _)]
    intro k
    rw [mem_gridCells_iff, mem_gridCells_iff]
    simp only [hmem]
  simp only [hcell]
  exact ho.flatMap_right _

/-- A run exists for every model. -/
theorem marching_run_exists {F : Type} [GoFloat F] (b : BinVOX F) : ∃ tris, MarchingRun b tris :=
  ⟨_, _, _, _, List.Perm.refl _, List.Perm.refl _, List.Perm.refl _, rfl⟩

/-! ## Exact arithmetic: the vertices are midpoints -/

/-- The point with doubled lattice coordinates `u` (the centre of voxel `k` is `at (2k)`). -/
def latticePoint (b : BinVOX ℚ) (u : Key) : Vec ℚ :=
  ⟨((u.X : ℚ) / 2 + 1 / 2) * (1 / b.VoxelsPerMM) + b.TX,
   ((u.Y : ℚ) / 2 + 1 / 2) * (1 / b.VoxelsPerMM) + b.TY,
   ((u.Z : ℚ) / 2 + 1 / 2) * (1 / b.VoxelsPerMM) + b.TZ⟩

theorem vertexInterp_half (p q : Vec ℚ) (a : Bool) :
    vertexInterp iso p q (if a then (ofInt 1 : ℚ) else ofInt 0) (if !a then (ofInt 1 : ℚ) else ofInt 0) =
      midpoint p q := by
  unfold vertexInterp midpoint
  cases a
  · have e1 : lt (goAbs (sub (iso : ℚ) (ofInt 0))) (epsilon : ℚ) = false := by decide +kernel
    have e2 : lt (goAbs (sub (iso : ℚ) (ofInt 1))) (epsilon : ℚ) = false := by decide +kernel
    have e3 : lt (goAbs (sub (ofInt 0 : ℚ) (ofInt 1))) (epsilon : ℚ) = false := by decide +kernel
    have e4 : div (sub (iso : ℚ) (ofInt 0)) (sub (ofInt 1) (ofInt 0)) = (1 / 2 : ℚ) := by decide +kernel
    simp only [Bool.not_false, if_true, Bool.false_eq_true, if_false, e1, e2, e3, e4]
    simp only [GoFloat.add, GoFloat.mul, GoFloat.sub]
    congr 1 <;> ring
  · have e1 : lt (goAbs (sub (iso : ℚ) (ofInt 0))) (epsilon : ℚ) = false := by decide +kernel
    have e2 : lt (goAbs (sub (iso : ℚ) (ofInt 1))) (epsilon : ℚ) = false := by decide +kernel
    have e3 : lt (goAbs (sub (ofInt 1 : ℚ) (ofInt 0))) (epsilon : ℚ) = false := by decide +kernel
    have e4 : div (sub (iso : ℚ) (ofInt 1)) (sub (ofInt 0) (ofInt 1)) = (1 / 2 : ℚ) := by decide +kernel
    simp only [Bool.not_true, if_true, Bool.false_eq_true, if_false, e1, e2, e3, e4]
    simp only [GoFloat.add, GoFloat.mul, GoFloat.sub]
    congr 1 <;> ring

theorem voxelToVector_rat (b : BinVOX ℚ) (k : Key) (i : Nat) :
    voxelToVector b k (cornerOff i) = centre b (corner k i) := by
  unfold voxelToVector centre corner Key.shift
  simp only [GoFloat.add, GoFloat.mul, GoFloat.div, GoFloat.ofInt, GoFloat.lit]
  push_cast
  congr 1 <;> ring

/-- The midpoint of edge `e` of the cell at `k`, in doubled coordinates. -/
def gmid (k : Key) (e : Nat) : Key := (mid e).shift (2 * k.X) (2 * k.Y) (2 * k.Z)

theorem midpoint_lattice (b : BinVOX ℚ) (k : Key) (e : Nat) :
    midpoint (centre b (corner k (edgeEnds e).1)) (centre b (corner k (edgeEnds e).2)) =
      latticePoint b (gmid k e) := by
  unfold midpoint centre latticePoint gmid mid corner Key.shift
  dsimp only
  push_cast
  congr 1 <;> ring

theorem vertlist_rat (b : BinVOX ℚ) (vs : List Key) (k : Key) {e : Nat} (he : e < 12)
    (hbit : (edgeTable.getD (idx (fun v => decide (v ∈ vs)) k) 0).testBit e = true) :
    vertlist (cell b (lookupOf vs) k) (edgeTable.getD (idx (fun v => decide (v ∈ vs)) k) 0) e =
      midpoint (centre b (corner k (edgeEnds e).1)) (centre b (corner k (edgeEnds e).2)) := by
  unfold vertlist
  rw [if_pos hbit]
  show vertexInterp iso (voxelToVector b k (cornerOff _)) (voxelToVector b k (cornerOff _))
    (((lookupOf vs : GoMap Key ℚ).get (corner k (edgeEnds e).1)).getD (ofInt 0))
    (((lookupOf vs : GoMap Key ℚ).get (corner k (edgeEnds e).2)).getD (ofInt 0)) = _
  rw [lookup_get, lookup_get, voxelToVector_rat, voxelToVector_rat]
  have hx := edgeTable_exact _ (List.mem_range.mpr (idx_lt (fun v => decide (v ∈ vs)) k)) e
    (List.mem_range.mpr he)
  rw [hbit] at hx
  obtain ⟨h1, h2, -⟩ := edge_adjacent e (List.mem_range.mpr he)
  rw [idx_bit _ _ h1, idx_bit _ _ h2] at hx
  have := vertexInterp_half (centre b (corner k (edgeEnds e).1)) (centre b (corner k (edgeEnds e).2))
    (decide (corner k (edgeEnds e).1 ∈ vs))
  rw [← this]
  by_cases ha : corner k (edgeEnds e).1 ∈ vs <;> by_cases hb : corner k (edgeEnds e).2 ∈ vs <;>
    simp [ha, hb] at hx ⊢

/-- The triangles of a cell, in exact arithmetic. -/
theorem polygonize_rat (b : BinVOX ℚ) (vs : List Key) (k : Key) :
    polygonize (cell b (lookupOf vs) k) =
      (symTris (idx (fun v => decide (v ∈ vs)) k)).map fun t =>
        ⟨latticePoint b (gmid k t.V1), latticePoint b (gmid k t.V2), latticePoint b (gmid k t.V3)⟩ := by
  unfold polygonize
  dsimp only
  rw [cubeIndex_cell isoLaws_rat]
  have hr := List.mem_range.mpr (idx_lt (fun v => decide (v ∈ vs)) k)
  split
  · rename_i h0
    rw [triTable_empty _ hr h0]
    rfl
  · show (symTris _).map _ = _
    apply List.map_congr_left
    intro t ht
    obtain ⟨l1, l2, l3, m1, m2, m3⟩ := (triTable_edges _ hr).1 t ht
    rw [vertlist_rat b vs k l1 m1, vertlist_rat b vs k l2 m2, vertlist_rat b vs k l3 m3,
      midpoint_lattice, midpoint_lattice, midpoint_lattice]

/-- **C49.** For every model and every map order, the marching-cubes triangles form a closed,
    consistently oriented surface. -/
theorem marching_closed {b : BinVOX ℚ} {tris : List (Tri (Vec ℚ))} (h : MarchingRun b tris) :
    Closed tris := by
  obtain ⟨wo, co, ord, hw, hc, ho, rfl⟩ := h
  have hp := all_cells_closed (fun v => decide (v ∈ wo ++ co)) ord
    (ho.nodup_iff.mpr (gridCells_nodup _)) (by
      rintro k ⟨i, hi, hk⟩
      exact ho.mem_iff.mpr ((mem_gridCells_iff _ _).mpr ⟨i, hi, of_decide_eq_true hk⟩))
  have hm := hp.map (Prod.map (latticePoint b) (latticePoint b))
  have he : (ord.flatMap fun k => polygonize (cell b (lookupOf (wo ++ co)) k)).flatMap triEdges =
      (ord.flatMap fun k => shiftE k (symEdges (idx (fun v => decide (v ∈ wo ++ co)) k))).map
        (Prod.map (latticePoint b) (latticePoint b)) := by
    rw [List.flatMap_assoc, List.map_flatMap]
    apply List.flatMap_congr
    intro k _
    rw [polygonize_rat]
    unfold symEdges shiftE
    rw [List.flatMap_map, List.map_map, List.map_flatMap]
    rfl
  intro u v
  rw [he]
  have hs : ((ord.flatMap fun k => shiftE k (symEdges (idx (fun v => decide (v ∈ wo ++ co)) k))).map
      Prod.swap).map (Prod.map (latticePoint b) (latticePoint b)) =
      ((ord.flatMap fun k => shiftE k (symEdges (idx (fun v => decide (v ∈ wo ++ co)) k))).map
        (Prod.map (latticePoint b) (latticePoint b))).map Prod.swap := by
    rw [List.map_map, List.map_map]
    rfl
  rw [hs] at hm
  rw [hm.count_eq]
  exact List.count_map_of_injective _ Prod.swap Prod.swap_injective (v, u)

/-! ## Where the vertices are -/

theorem corner_adjacent (k : Key) {e : Nat} (he : e < 12) :
    Adjacent (corner k (edgeEnds e).1) (corner k (edgeEnds e).2) := by
  have := (edge_adjacent e (List.mem_range.mpr he)).2.2
  unfold Adjacent corner Key.shift
  dsimp only
  omega

theorem adjacent_symm {k k' : Key} (h : Adjacent k k') : Adjacent k' k := by
  unfold Adjacent at *
  omega

theorem midpoint_comm (p q : Vec ℚ) : midpoint p q = midpoint q p := by
  unfold midpoint
  congr 1 <;> ring

theorem edge_mixed {vs : List Key} {k : Key} {e : Nat} (he : e < 12)
    (hbit : (edgeTable.getD (idx (fun v => decide (v ∈ vs)) k) 0).testBit e = true) :
    (decide (corner k (edgeEnds e).1 ∈ vs) != decide (corner k (edgeEnds e).2 ∈ vs)) = true := by
  have hx := edgeTable_exact _ (List.mem_range.mpr (idx_lt (fun v => decide (v ∈ vs)) k)) e
    (List.mem_range.mpr he)
  rw [hbit] at hx
  obtain ⟨h1, h2, -⟩ := edge_adjacent e (List.mem_range.mpr he)
  rw [idx_bit _ _ h1, idx_bit _ _ h2] at hx
  rw [hx]
  cases decide (corner k (edgeEnds e).1 ∈ vs) <;> cases decide (corner k (edgeEnds e).2 ∈ vs) <;> rfl

/-- The present and the absent corner of a marked edge. -/
theorem edge_in_out {vs : List Key} {k : Key} {e : Nat} (he : e < 12)
    (hbit : (edgeTable.getD (idx (fun v => decide (v ∈ vs)) k) 0).testBit e = true) (b : BinVOX ℚ) :
    corner k (inCorner (idx (fun v => decide (v ∈ vs)) k) e) ∈ vs ∧
    corner k (outCorner (idx (fun v => decide (v ∈ vs)) k) e) ∉ vs ∧
    Adjacent (corner k (inCorner (idx (fun v => decide (v ∈ vs)) k) e))
      (corner k (outCorner (idx (fun v => decide (v ∈ vs)) k) e)) ∧
    latticePoint b (gmid k e) = midpoint (centre b (corner k (inCorner (idx (fun v => decide (v ∈ vs)) k) e)))
      (centre b (corner k (outCorner (idx (fun v => decide (v ∈ vs)) k) e))) := by
  have hm := edge_mixed he hbit
  have ha := corner_adjacent k he
  have hl := midpoint_lattice b k e
  obtain ⟨h1, h2, -⟩ := edge_adjacent e (List.mem_range.mpr he)
  unfold inCorner outCorner
  rw [idx_bit _ _ h1]
  by_cases hin : corner k (edgeEnds e).1 ∈ vs
  · by_cases hin2 : corner k (edgeEnds e).2 ∈ vs
    · simp [hin, hin2] at hm
    · simp only [hin, decide_true, Bool.not_true, Bool.false_eq_true, if_false]
      exact ⟨trivial, hin2, ha, hl.symm⟩
  · by_cases hin2 : corner k (edgeEnds e).2 ∈ vs
    · simp only [hin, decide_false, Bool.not_false, if_true]
      exact ⟨hin2, not_false, adjacent_symm ha, by rw [← hl, midpoint_comm]⟩
    · simp [hin, hin2] at hm

/-- Two adjacent voxels are the ends of edge 0, 3 or 8 of a cell. -/
theorem adjacent_edge {k k' : Key} (h : Adjacent k k') :
    ∃ c e, e < 12 ∧ ((corner c (edgeEnds e).1 = k ∧ corner c (edgeEnds e).2 = k') ∨
      (corner c (edgeEnds e).1 = k' ∧ corner c (edgeEnds e).2 = k)) := by
  obtain ⟨X, Y, Z⟩ := k
  obtain ⟨X', Y', Z'⟩ := k'
  unfold Adjacent at h
  dsimp only at h
  have hc : (X' = X + 1 ∧ Y' = Y ∧ Z' = Z) ∨ (X = X' + 1 ∧ Y' = Y ∧ Z' = Z) ∨
      (Y' = Y + 1 ∧ X' = X ∧ Z' = Z) ∨ (Y = Y' + 1 ∧ X' = X ∧ Z' = Z) ∨
      (Z' = Z + 1 ∧ X' = X ∧ Y' = Y) ∨ (Z = Z' + 1 ∧ X' = X ∧ Y' = Y) := by
    have z : ∀ x y : Int, (x - y).natAbs = 0 → y = x := fun x y h => by omega
    have o : ∀ x y : Int, (x - y).natAbs = 1 → y = x + 1 ∨ x = y + 1 := fun x y h => by omega
    have hx := z X X'
    have hy := z Y Y'
    have hz := z Z Z'
    have ox := o X X'
    have oy := o Y Y'
    have oz := o Z Z'
    generalize (X - X').natAbs = a at *
    generalize (Y - Y').natAbs = b at *
    generalize (Z - Z').natAbs = c at *
    have : (a = 1 ∧ b = 0 ∧ c = 0) ∨ (a = 0 ∧ b = 1 ∧ c = 0) ∨ (a = 0 ∧ b = 0 ∧ c = 1) := by omega
    rcases this with ⟨h1, h2, h3⟩ | ⟨h1, h2, h3⟩ | ⟨h1, h2, h3⟩
    · rcases ox h1 with h | h
      · exact Or.inl ⟨h, hy h2, hz h3⟩
      · exact Or.inr (Or.inl ⟨h, hy h2, hz h3⟩)
    · rcases oy h2 with h | h
      · exact Or.inr (Or.inr (Or.inl ⟨h, hx h1, hz h3⟩))
      · exact Or.inr (Or.inr (Or.inr (Or.inl ⟨h, hx h1, hz h3⟩)))
    · rcases oz h3 with h | h
      · exact Or.inr (Or.inr (Or.inr (Or.inr (Or.inl ⟨h, hx h1, hy h2⟩))))
      · exact Or.inr (Or.inr (Or.inr (Or.inr (Or.inr ⟨h, hx h1, hy h2⟩))))
  rcases hc with ⟨rfl, rfl, rfl⟩ | ⟨rfl, rfl, rfl⟩ | ⟨rfl, rfl, rfl⟩ | ⟨rfl, rfl, rfl⟩ |
    ⟨rfl, rfl, rfl⟩ | ⟨rfl, rfl, rfl⟩
  · exact ⟨⟨X, Y', Z'⟩, 0, by decide, Or.inl (by simp [corner, cornerOff, edgeEnds, Key.shift])⟩
  · exact ⟨⟨X', Y', Z'⟩, 0, by decide, Or.inr (by simp [corner, cornerOff, edgeEnds, Key.shift])⟩
  · exact ⟨⟨X', Y + 1, Z'⟩, 3, by decide, Or.inl (by simp [corner, cornerOff, edgeEnds, Key.shift])⟩
  · exact ⟨⟨X', Y' + 1, Z'⟩, 3, by decide, Or.inr (by simp [corner, cornerOff, edgeEnds, Key.shift])⟩
  · exact ⟨⟨X', Y', Z⟩, 8, by decide, Or.inl (by simp [corner, cornerOff, edgeEnds, Key.shift])⟩
  · exact ⟨⟨X', Y', Z'⟩, 8, by decide, Or.inr (by simp [corner, cornerOff, edgeEnds, Key.shift])⟩

/-- **C49.** The corners of the surface are exactly the points halfway between a voxel of the
    model and an adjacent voxel that is not in the model. -/
theorem marching_vertices {b : BinVOX ℚ} {tris : List (Tri (Vec ℚ))} (h : MarchingRun b tris) (p : Vec ℚ) :
    (∃ t ∈ tris, p = t.V1 ∨ p = t.V2 ∨ p = t.V3) ↔
      ∃ k k' : Key, Adjacent k k' ∧ Present b k ∧ ¬ Present b k' ∧ p = midpoint (centre b k) (centre b k') := by
  obtain ⟨wo, co, ord, hw, hc, ho, rfl⟩ := h
  have hpres := present_iff b hw hc
  constructor
  · rintro ⟨t, ht, hp⟩
    obtain ⟨c, -, ht⟩ := List.mem_flatMap.mp ht
    rw [polygonize_rat] at ht
    obtain ⟨s, hs, rfl⟩ := List.mem_map.mp ht
    have hr := List.mem_range.mpr (idx_lt (fun v => decide (v ∈ wo ++ co)) c)
    obtain ⟨l1, l2, l3, m1, m2, m3⟩ := (triTable_edges _ hr).1 s hs
    have key : ∀ e, e < 12 →
        (edgeTable.getD (idx (fun v => decide (v ∈ wo ++ co)) c) 0).testBit e = true →
        p = latticePoint b (gmid c e) → ∃ k k' : Key, Adjacent k k' ∧ Present b k ∧ ¬ Present b k' ∧
          p = midpoint (centre b k) (centre b k') := by
      intro e he hb hp
      obtain ⟨i1, i2, i3, i4⟩ := edge_in_out he hb b
      exact ⟨_, _, i3, (hpres _).mp i1, fun h => i2 ((hpres _).mpr h), hp.trans i4⟩
    rcases hp with hp | hp | hp
    · exact key _ l1 m1 hp
    · exact key _ l2 m2 hp
    · exact key _ l3 m3 hp
  · rintro ⟨k, k', hadj, hk, hk', rfl⟩
    obtain ⟨c, e, he, hends⟩ := adjacent_edge hadj
    have hr := List.mem_range.mpr (idx_lt (fun v => decide (v ∈ wo ++ co)) c)
    obtain ⟨h1, h2, -⟩ := edge_adjacent e (List.mem_range.mpr he)
    have hin := (hpres k).mpr hk
    have hout : k' ∉ wo ++ co := fun h => hk' ((hpres k').mp h)
    have hbit : (edgeTable.getD (idx (fun v => decide (v ∈ wo ++ co)) c) 0).testBit e = true := by
      rw [edgeTable_exact _ hr e (List.mem_range.mpr he), idx_bit _ _ h1, idx_bit _ _ h2]
      rcases hends with ⟨a1, a2⟩ | ⟨a1, a2⟩
      · rw [a1, a2, decide_eq_true hin, decide_eq_false hout]; rfl
      · rw [a1, a2, decide_eq_true hin, decide_eq_false hout]; rfl
    obtain ⟨s, hs, hv⟩ := (triTable_edges _ hr).2 e (List.mem_range.mpr he) hbit
    have hmem : c ∈ ord := by
      refine ho.mem_iff.mpr ((mem_gridCells_iff _ _).mpr ?_)
      rcases hends with ⟨a1, -⟩ | ⟨-, a1⟩
      · exact ⟨_, h1, by rw [a1]; exact hin⟩
      · exact ⟨_, h2, by rw [a1]; exact hin⟩
    refine ⟨⟨latticePoint b (gmid c s.V1), latticePoint b (gmid c s.V2), latticePoint b (gmid c s.V3)⟩,
      List.mem_flatMap.mpr ⟨c, hmem, ?_⟩, ?_⟩
    · rw [polygonize_rat]
      exact List.mem_map.mpr ⟨s, hs, rfl⟩
    · have hp : midpoint (centre b k) (centre b k') = latticePoint b (gmid c e) := by
        rw [← midpoint_lattice]
        rcases hends with ⟨a1, a2⟩ | ⟨a1, a2⟩
        · rw [a1, a2]
        · rw [a1, a2, midpoint_comm]
      rw [hp]
      dsimp only
      rcases hv with h | h | h
      · exact Or.inl (by rw [h])
      · exact Or.inr (Or.inl (by rw [h]))
      · exact Or.inr (Or.inr (by rw [h]))

/-- A finite nonempty set of voxels has a voxel whose right neighbour is not in it. -/
theorem exists_rightmost : ∀ (l : List Key), l ≠ [] → ∃ k ∈ l, k.shift 1 0 0 ∉ l := by
  intro l hl
  have hm : ∀ l : List Key, l ≠ [] → ∃ k ∈ l, ∀ k' ∈ l, k'.X ≤ k.X := by
    intro l
    induction l with
    | nil => intro h; exact absurd rfl h
    | cons a l ih =>
      intro _
      by_cases h : l = []
      · subst h
        exact ⟨a, by simp, by simp⟩
      · obtain ⟨k, hk, hmax⟩ := ih h
        by_cases hc : a.X ≤ k.X
        · refine ⟨k, List.mem_cons_of_mem _ hk, ?_⟩
          intro k' hk'
          rcases List.mem_cons.mp hk' with rfl | h'
          · exact hc
          · exact hmax k' h'
        · refine ⟨a, List.mem_cons_self, ?_⟩
          intro k' hk'
          rcases List.mem_cons.mp hk' with rfl | h'
          · exact le_refl _
          · have := hmax k' h'
            omega
  obtain ⟨k, hk, hmax⟩ := hm l hl
  refine ⟨k, hk, fun h => ?_⟩
  have := hmax _ h
  unfold Key.shift at this
  dsimp only at this
  omega

/-- **C49.** There are triangles unless the model has no voxel. -/
theorem marching_empty_iff {b : BinVOX ℚ} {tris : List (Tri (Vec ℚ))} (h : MarchingRun b tris) :
    tris = [] ↔ ∀ k, ¬ Present b k := by
  have hv := marching_vertices h
  constructor
  · rintro rfl k hk
    obtain ⟨wo, co, ord, hw, hc, ho, -⟩ := h
    have hpres := present_iff b hw hc
    obtain ⟨m, hm, hm'⟩ := exists_rightmost (wo ++ co) (by
      intro h0
      have := (hpres k).mpr hk
      rw [h0] at this
      cases this)
    have := (hv (midpoint (centre b m) (centre b (m.shift 1 0 0)))).mpr
      ⟨m, m.shift 1 0 0, by unfold Adjacent Key.shift; dsimp only; omega, (hpres m).mp hm,
        fun h => hm' ((hpres _).mpr h), rfl⟩
    obtain ⟨t, ht, -⟩ := this
    cases ht
  · intro hn
    rcases tris with _ | ⟨t, ts⟩
    · rfl
    · exfalso
      obtain ⟨k, -, -, hk, -⟩ := (hv t.V1).mp ⟨t, List.mem_cons_self, Or.inl rfl⟩
      exact hn k hk

/-! ## Orientation -/

theorem vsub_lattice (b : BinVOX ℚ) (k : Key) (e f : Nat) :
    vsub (latticePoint b (gmid k e)) (latticePoint b (gmid k f)) =
      ⟨((kSub (mid e) (mid f)).X : ℚ) / 2 * (1 / b.VoxelsPerMM),
       ((kSub (mid e) (mid f)).Y : ℚ) / 2 * (1 / b.VoxelsPerMM),
       ((kSub (mid e) (mid f)).Z : ℚ) / 2 * (1 / b.VoxelsPerMM)⟩ := by
  unfold vsub latticePoint gmid kSub Key.shift
  dsimp only
  push_cast
  congr 1 <;> ring

theorem vsub_centre (b : BinVOX ℚ) (k : Key) (i j : Nat) :
    vsub (centre b (corner k i)) (centre b (corner k j)) =
      ⟨((kSub (cornerOff i) (cornerOff j)).X : ℚ) * (1 / b.VoxelsPerMM),
       ((kSub (cornerOff i) (cornerOff j)).Y : ℚ) * (1 / b.VoxelsPerMM),
       ((kSub (cornerOff i) (cornerOff j)).Z : ℚ) * (1 / b.VoxelsPerMM)⟩ := by
  unfold vsub centre corner kSub Key.shift
  dsimp only
  push_cast
  congr 1 <;> ring

theorem dot_scale (b : BinVOX ℚ) (k : Key) (e f g i j : Nat) :
    vdot (vcross (vsub (latticePoint b (gmid k f)) (latticePoint b (gmid k e)))
        (vsub (latticePoint b (gmid k g)) (latticePoint b (gmid k e))))
      (vsub (centre b (corner k i)) (centre b (corner k j))) =
    (1 / 4) * (1 / b.VoxelsPerMM) ^ 3 *
      (kDot (kCross (kSub (mid f) (mid e)) (kSub (mid g) (mid e))) (kSub (cornerOff i) (cornerOff j)) : Int) := by
  rw [vsub_lattice, vsub_lattice, vsub_centre]
  unfold vdot vcross kDot kCross
  dsimp only
  push_cast
  ring

/-- **C49.** Every triangle is proper and faces outwards. -/
theorem marching_faces_out {b : BinVOX ℚ} {tris : List (Tri (Vec ℚ))} (h : MarchingRun b tris)
    (hv : 0 < b.VoxelsPerMM) : ∀ t ∈ tris, FacesOut b t := by
  obtain ⟨wo, co, ord, hw, hc, ho, rfl⟩ := h
  have hpres := present_iff b hw hc
  intro t ht
  obtain ⟨c, -, ht⟩ := List.mem_flatMap.mp ht
  rw [polygonize_rat] at ht
  obtain ⟨s, hs, rfl⟩ := List.mem_map.mp ht
  have hr := List.mem_range.mpr (idx_lt (fun v => decide (v ∈ wo ++ co)) c)
  obtain ⟨l1, l2, l3, m1, m2, m3⟩ := (triTable_edges _ hr).1 s hs
  obtain ⟨a1, a2, a3, a4⟩ := edge_in_out l1 m1 b
  obtain ⟨b1, b2, b3, b4⟩ := edge_in_out l2 m2 b
  obtain ⟨c1, c2, c3, c4⟩ := edge_in_out l3 m3 b
  refine ⟨_, _, _, _, _, _, ⟨a3, (hpres _).mp a1, fun h => a2 ((hpres _).mpr h), a4⟩,
    ⟨b3, (hpres _).mp b1, fun h => b2 ((hpres _).mpr h), b4⟩,
    ⟨c3, (hpres _).mp c1, fun h => c2 ((hpres _).mpr h), c4⟩, ?_⟩
  unfold normal
  dsimp only
  rw [dot_scale, dot_scale, dot_scale, ← mul_add, ← mul_add]
  have hpos := tri_outward _ hr s hs
  unfold symOut at hpos
  dsimp only at hpos
  have : (0 : ℚ) < (1 / 4) * (1 / b.VoxelsPerMM) ^ 3 := by positivity
  apply mul_pos this
  exact_mod_cast hpos

/-- A model with three voxels, two of them diagonal neighbours. -/
def exModel : BinVOX ℚ where
  NX := 3
  NY := 3
  NZ := 3
  TX := 1
  TY := -2
  TZ := 1 / 2
  Scale := 6
  WhiteVoxels := some [(⟨0, 0, 0⟩, ()), (⟨1, 1, 0⟩, ())]
  ColorVoxels := some [(⟨2, 2, 2⟩, ⟨1, 0, 0, 1⟩)]

/-- The hypotheses are met: the example has a run, its run has triangles and its scale is positive. -/
example : (∃ tris, MarchingRun exModel tris ∧ tris ≠ []) ∧ 0 < exModel.VoxelsPerMM := by
  obtain ⟨tris, h⟩ := marching_run_exists exModel
  refine ⟨⟨tris, h, fun h0 => ?_⟩, by decide +kernel⟩
  exact (marching_empty_iff h).mp h0 ⟨0, 0, 0⟩ (by unfold Present; decide +kernel)

/-- `marching_runs_perm`, `marching_closed`, `marching_vertices` and `marching_faces_out` on the example: there is a mesh with these properties, it has
triangles, and the midpoint between the voxels (0,0,0) and (0,0,1) is one of its corners. -/
example : ∃ tris, MarchingRun exModel tris ∧ tris ≠ [] ∧ Closed tris ∧ (∀ t ∈ tris, FacesOut exModel t) ∧
    (∃ t ∈ tris, midpoint (centre exModel ⟨0, 0, 0⟩) (centre exModel ⟨0, 0, 1⟩) = t.V1 ∨
      midpoint (centre exModel ⟨0, 0, 0⟩) (centre exModel ⟨0, 0, 1⟩) = t.V2 ∨
      midpoint (centre exModel ⟨0, 0, 0⟩) (centre exModel ⟨0, 0, 1⟩) = t.V3) ∧
    ∀ other, MarchingRun exModel other → tris.Perm other := by
  obtain ⟨tris, h⟩ := marching_run_exists exModel
  have hp : Present exModel ⟨0, 0, 0⟩ := by unfold Present; decide +kernel
  refine ⟨tris, h, fun h0 => (marching_empty_iff h).mp h0 ⟨0, 0, 0⟩ hp, marching_closed h, marching_faces_out h (by decide +kernel),
    (marching_vertices h _).mpr ⟨_, _, ?_, hp, ?_, rfl⟩, fun o ho => marching_runs_perm h ho⟩
  · unfold Adjacent; decide +kernel
  · unfold Present; decide +kernel

end Marching
end StlDice
