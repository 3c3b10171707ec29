import Verif.Lemmas.Float64
import Verif.Model.Float32
import Verif.Spec.Float64
import Verif.Props.Marching
import Verif.Props.Commands

/-! # Marching cubes in float64 (C84) -/

namespace StlDice
namespace Marching
open Spec GoFloat BinVOX F64

theorem isoLaws_f64 : IsoLaws F64 where
  absent := by decide +kernel
  present := by decide +kernel

/-- `p1 + mu*(p2-p1)` for `mu = 0.5`. -/
def half64 (x y : F64) : F64 := add x (mul (lit (1 / 2)) (sub y x))

theorem lit_half : (lit (1 / 2 : ℚ) : F64).val = 1 / 2 :=
  of_exact ⟨1, -1, by norm_num, by norm_num, by norm_num⟩

theorem half64_exact {x y : F64} (h : Binary64 ((y.val - x.val) / 2)) : half64 x y = of ((x.val + y.val) / 2) := by
  have h1 : (sub y x : F64).val = y.val - x.val := of_exact (binary64_of_half h)
  have h2 : (mul (lit (1 / 2)) (sub y x) : F64).val = (y.val - x.val) / 2 := by
    show rnd ((lit (1 / 2 : ℚ) : F64).val * (sub y x : F64).val) = _
    rw [lit_half, h1]
    have : (1 / 2 : ℚ) * (y.val - x.val) = (y.val - x.val) / 2 := by ring
    rw [this]
    exact rnd_of_mem h
  apply F64.ext
  show rnd (x.val + (mul (lit (1 / 2)) (sub y x) : F64).val) = rnd _
  rw [h2]
  congr 1
  ring

theorem vertexInterp_half64 (p q : Vec F64) (a : Bool) :
    vertexInterp iso p q (if a then (ofInt 1 : F64) else ofInt 0) (if !a then (ofInt 1 : F64) else ofInt 0) =
      ⟨half64 p.X q.X, half64 p.Y q.Y, half64 p.Z q.Z⟩ := by
  unfold vertexInterp half64
  cases a
  · have e1 : lt (goAbs (sub (iso : F64) (ofInt 0))) (epsilon : F64) = false := by decide +kernel
    have e2 : lt (goAbs (sub (iso : F64) (ofInt 1))) (epsilon : F64) = false := by decide +kernel
    have e3 : lt (goAbs (sub (ofInt 0 : F64) (ofInt 1))) (epsilon : F64) = false := by decide +kernel
    have e4 : div (sub (iso : F64) (ofInt 0)) (sub (ofInt 1) (ofInt 0)) = (lit (1 / 2) : F64) := by decide +kernel
    simp only [Bool.not_false, if_true, Bool.false_eq_true, if_false, e1, e2, e3, e4]
  · have e1 : lt (goAbs (sub (iso : F64) (ofInt 0))) (epsilon : F64) = false := by decide +kernel
    have e2 : lt (goAbs (sub (iso : F64) (ofInt 1))) (epsilon : F64) = false := by decide +kernel
    have e3 : lt (goAbs (sub (ofInt 1 : F64) (ofInt 0))) (epsilon : F64) = false := by decide +kernel
    have e4 : div (sub (iso : F64) (ofInt 1)) (sub (ofInt 0) (ofInt 1)) = (lit (1 / 2) : F64) := by decide +kernel
    simp only [Bool.not_true, if_true, Bool.false_eq_true, if_false, e1, e2, e3, e4]

/-! ## The centres -/

theorem ofInt_val {n : Int} (h : |n| ≤ 2 ^ 53) : (ofInt n : F64).val = n := of_exact (binary64_int h)

theorem half_ofInt {k d : Int} (hk : |k| ≤ 2 ^ 51) (hd : |d| ≤ 1) :
    (add (add (ofInt k) (lit (1 / 2))) (ofInt d) : F64).val = ((k + d : Int) : ℚ) + 1 / 2 := by
  obtain ⟨k1, k2⟩ := abs_le.mp hk
  obtain ⟨d1, d2⟩ := abs_le.mp hd
  have h1 : (add (ofInt k) (lit (1 / 2)) : F64).val = (k : ℚ) + 1 / 2 := by
    show rnd ((ofInt k : F64).val + (lit (1 / 2 : ℚ) : F64).val) = _
    rw [ofInt_val (abs_le.mpr ⟨by omega, by omega⟩), lit_half]
    have : (k : ℚ) + 1 / 2 = ((2 * k + 1 : Int) : ℚ) / 2 := by push_cast; ring
    rw [this]
    exact rnd_of_mem (binary64_half (abs_le.mpr ⟨by omega, by omega⟩))
  show rnd ((add (ofInt k) (lit (1 / 2)) : F64).val + (ofInt d : F64).val) = _
  rw [h1, ofInt_val (abs_le.mpr ⟨by omega, by omega⟩)]
  have : (k : ℚ) + 1 / 2 + d = ((2 * (k + d) + 1 : Int) : ℚ) / 2 := by push_cast; ring
  rw [this, rnd_of_mem (binary64_half (abs_le.mpr ⟨by omega, by omega⟩))]
  push_cast
  ring

theorem coord_val (v t : F64) {k d : Int} (hk : |k| ≤ 2 ^ 51) (hd : |d| ≤ 1) :
    (add (mul (add (add (ofInt k) (lit (1 / 2))) (ofInt d)) (div (ofInt 1) v)) t : F64).val =
      coord64 v.val t.val (k + d) := by
  show rnd (rnd ((add (add (ofInt k) (lit (1 / 2))) (ofInt d) : F64).val * rnd ((ofInt 1 : F64).val / v.val)) + t.val) = _
  rw [half_ofInt hk hd, ofInt_val (n := 1) (by norm_num)]
  unfold coord64
  push_cast
  rfl

theorem cornerOff_small : ∀ i ∈ List.range 8, |(cornerOff i).X| ≤ 1 ∧ |(cornerOff i).Y| ≤ 1 ∧ |(cornerOff i).Z| ≤ 1 := by
  decide +kernel

/-- The coordinates of a cell. -/
def CellSmall (k : Key) : Prop := |k.X| ≤ 2 ^ 51 ∧ |k.Y| ≤ 2 ^ 51 ∧ |k.Z| ≤ 2 ^ 51

/-- The values of a float64 vector. -/
def vecVal (p : Vec F64) : Vec ℚ := ⟨p.X.val, p.Y.val, p.Z.val⟩

theorem vecVal_inj {p q : Vec F64} (h : vecVal p = vecVal q) : p = q := by
  cases p; cases q
  simp only [vecVal, Vec.mk.injEq] at h
  rw [F64.ext h.1, F64.ext h.2.1, F64.ext h.2.2]

theorem voxelToVector_64 (b : BinVOX F64) {k : Key} (hk : CellSmall k) {i : Nat} (hi : i < 8) :
    vecVal (voxelToVector b k (cornerOff i)) = centre64 b (corner k i) := by
  obtain ⟨d1, d2, d3⟩ := cornerOff_small i (List.mem_range.mpr hi)
  unfold vecVal voxelToVector centre64 corner Key.shift
  dsimp only
  rw [coord_val _ _ hk.1 d1, coord_val _ _ hk.2.1 d2, coord_val _ _ hk.2.2 d3]

/-! ## The vertices -/

/-- The rounded midpoint. -/
def mid64 (p q : Vec ℚ) : Vec F64 := ⟨of ((p.X + q.X) / 2), of ((p.Y + q.Y) / 2), of ((p.Z + q.Z) / 2)⟩

theorem mid64_comm (p q : Vec ℚ) : mid64 p q = mid64 q p := by
  unfold mid64
  rw [add_comm p.X, add_comm p.Y, add_comm p.Z]

theorem halfStep_symm {p q : Vec ℚ} (h : HalfStep p q) : HalfStep q p := by
  obtain ⟨h1, h2, h3⟩ := h
  have e : ∀ a b : ℚ, (a - b) / 2 = -((b - a) / 2) := fun a b => by ring
  refine ⟨?_, ?_, ?_⟩
  · rw [e]; exact binary64_neg h1
  · rw [e]; exact binary64_neg h2
  · rw [e]; exact binary64_neg h3

/-- The crossings of the surface with the grid have exact half steps. -/
def GoodCrossings (b : BinVOX F64) (vs : List Key) : Prop :=
  ∀ u v : Key, u ∈ vs → v ∉ vs → Adjacent u v → HalfStep (centre64 b u) (centre64 b v)

theorem vertlist_raw (b : BinVOX F64) (vs : List Key) (k : Key) {e : Nat} (he : e < 12)
    (hbit : (edgeTable.getD (idx (fun v => decide (v ∈ vs)) k) 0).testBit e = true) :
    vertlist (cell b (lookupOf vs) k) (edgeTable.getD (idx (fun v => decide (v ∈ vs)) k) 0) e =
      ⟨half64 (voxelToVector b k (cornerOff (edgeEnds e).1)).X (voxelToVector b k (cornerOff (edgeEnds e).2)).X,
       half64 (voxelToVector b k (cornerOff (edgeEnds e).1)).Y (voxelToVector b k (cornerOff (edgeEnds e).2)).Y,
       half64 (voxelToVector b k (cornerOff (edgeEnds e).1)).Z (voxelToVector b k (cornerOff (edgeEnds e).2)).Z⟩ := by
  have hm := edge_mixed he hbit
  unfold vertlist
  rw [if_pos hbit]
  show vertexInterp iso (voxelToVector b k (cornerOff _)) (voxelToVector b k (cornerOff _))
    (((lookupOf vs : GoMap Key F64).get (corner k (edgeEnds e).1)).getD (ofInt 0))
    (((lookupOf vs : GoMap Key F64).get (corner k (edgeEnds e).2)).getD (ofInt 0)) = _
  rw [lookup_get, lookup_get]
  have key := vertexInterp_half64 (voxelToVector b k (cornerOff (edgeEnds e).1)) (voxelToVector b k (cornerOff (edgeEnds e).2))
    (decide (corner k (edgeEnds e).1 ∈ vs))
  refine Eq.trans ?_ key
  by_cases h1 : corner k (edgeEnds e).1 ∈ vs <;> by_cases h2 : corner k (edgeEnds e).2 ∈ vs <;> simp [h1, h2] at hm ⊢

theorem vertlist_64 (b : BinVOX F64) (vs : List Key) {k : Key} (hk : CellSmall k) (hx : GoodCrossings b vs) {e : Nat} (he : e < 12)
    (hbit : (edgeTable.getD (idx (fun v => decide (v ∈ vs)) k) 0).testBit e = true) :
    vertlist (cell b (lookupOf vs) k) (edgeTable.getD (idx (fun v => decide (v ∈ vs)) k) 0) e =
      mid64 (centre64 b (corner k (edgeEnds e).1)) (centre64 b (corner k (edgeEnds e).2)) := by
  obtain ⟨l1, l2, -⟩ := edge_adjacent e (List.mem_range.mpr he)
  have hm := edge_mixed he hbit
  have ha := corner_adjacent k he
  have hs : HalfStep (centre64 b (corner k (edgeEnds e).1)) (centre64 b (corner k (edgeEnds e).2)) := by
    by_cases h1 : corner k (edgeEnds e).1 ∈ vs
    · by_cases h2 : corner k (edgeEnds e).2 ∈ vs
      · simp [h1, h2] at hm
      · exact hx _ _ h1 h2 ha
    · by_cases h2 : corner k (edgeEnds e).2 ∈ vs
      · exact halfStep_symm (hx _ _ h2 h1 (adjacent_symm ha))
      · simp [h1, h2] at hm
  rw [vertlist_raw b vs k he hbit]
  have hv1 := voxelToVector_64 b hk l1
  have hv2 := voxelToVector_64 b hk l2
  rw [← hv1, ← hv2] at hs ⊢
  generalize voxelToVector b k (cornerOff (edgeEnds e).1) = p at *
  generalize voxelToVector b k (cornerOff (edgeEnds e).2) = q at *
  rw [half64_exact hs.1, half64_exact hs.2.1, half64_exact hs.2.2]
  rfl

/-- The vertex with doubled lattice coordinates `u`. -/
def point64 (b : BinVOX F64) (u : Key) : Vec F64 :=
  mid64 (centre64 b ⟨u.X / 2, u.Y / 2, u.Z / 2⟩) (centre64 b ⟨u.X - u.X / 2, u.Y - u.Y / 2, u.Z - u.Z / 2⟩)

theorem mid_coord (v t : ℚ) {k a c : Int} (h : (a - c).natAbs ≤ 1) :
    (coord64 v t (k + a) + coord64 v t (k + c)) / 2 =
      (coord64 v t ((a + c + 2 * k) / 2) + coord64 v t ((a + c + 2 * k) - (a + c + 2 * k) / 2)) / 2 := by
  rcases (by omega : a = c ∨ a = c + 1 ∨ c = a + 1) with h | h | h
  · have e1 : (a + c + 2 * k) / 2 = k + a := by omega
    rw [e1]
    have e2 : a + c + 2 * k - (k + a) = k + c := by omega
    rw [e2]
  · have e1 : (a + c + 2 * k) / 2 = k + c := by omega
    rw [e1]
    have e2 : a + c + 2 * k - (k + c) = k + a := by omega
    rw [e2, add_comm]
  · have e1 : (a + c + 2 * k) / 2 = k + a := by omega
    rw [e1]
    have e2 : a + c + 2 * k - (k + a) = k + c := by omega
    rw [e2]

theorem mid64_point (b : BinVOX F64) (k : Key) {e : Nat} (he : e < 12) :
    mid64 (centre64 b (corner k (edgeEnds e).1)) (centre64 b (corner k (edgeEnds e).2)) = point64 b (gmid k e) := by
  obtain ⟨-, -, h⟩ := edge_adjacent e (List.mem_range.mpr he)
  unfold point64 mid64 centre64 gmid mid corner Key.shift
  dsimp only
  rw [mid_coord (h := by omega), mid_coord (h := by omega), mid_coord (h := by omega)]

/-- The triangles of a cell. -/
theorem polygonize_64 (b : BinVOX F64) (vs : List Key) {k : Key} (hk : CellSmall k) (hx : GoodCrossings b vs) :
    polygonize (cell b (lookupOf vs) k) =
      (symTris (idx (fun v => decide (v ∈ vs)) k)).map fun t =>
        ⟨point64 b (gmid k t.V1), point64 b (gmid k t.V2), point64 b (gmid k t.V3)⟩ := by
  unfold polygonize
  dsimp only
  rw [cubeIndex_cell isoLaws_f64]
  have hr := List.mem_range.mpr (idx_lt (fun v => decide (v ∈ vs)) k)
  split
  · rename_i h0
    rw [triTable_empty _ hr h0]
    rfl
  · show (symTris _).map _ = _
    apply List.map_congr_left
    intro t ht
    obtain ⟨l1, l2, l3, m1, m2, m3⟩ := (triTable_edges _ hr).1 t ht
    rw [vertlist_64 b vs hk hx l1 m1, vertlist_64 b vs hk hx l2 m2, vertlist_64 b vs hk hx l3 m3,
      mid64_point b k l1, mid64_point b k l2, mid64_point b k l3]

theorem cell_small {vs : List Key} (hs : ∀ k ∈ vs, |k.X| ≤ 2 ^ 50 ∧ |k.Y| ≤ 2 ^ 50 ∧ |k.Z| ≤ 2 ^ 50) {k : Key}
    (hk : k ∈ (gridCellsOf vs).keys) : CellSmall k := by
  obtain ⟨i, hi, hm⟩ := (mem_gridCells_iff vs k).mp hk
  obtain ⟨h1, h2, h3⟩ := hs _ hm
  obtain ⟨d1, d2, d3⟩ := cornerOff_small i (List.mem_range.mpr hi)
  unfold corner Key.shift at h1 h2 h3
  dsimp only at h1 h2 h3
  rw [abs_le] at h1 h2 h3 d1 d2 d3
  unfold CellSmall
  rw [abs_le, abs_le, abs_le]
  omega

/-- **C84.** In float64 the marching-cubes triangles form a closed, consistently oriented surface, if at every crossing
    of the surface with the grid half the step between the two voxel centres (as computed) is a float64. -/
theorem marching_closed_f64 {b : BinVOX F64} {tris : List (Tri (Vec F64))} (h : MarchingRun b tris) (hs : SmallGrid b)
    (hx : ∀ u v : Key, Present b u → ¬ Present b v → Adjacent u v → HalfStep (centre64 b u) (centre64 b v)) :
    Closed tris := by
  obtain ⟨wo, co, ord, hw, hc, ho, rfl⟩ := h
  have hmem : ∀ k, k ∈ wo ++ co ↔ Present b k := present_iff b hw hc
  have hg : GoodCrossings b (wo ++ co) := fun u v hu hv ha =>
    hx u v ((hmem u).mp hu) (fun h => hv ((hmem v).mpr h)) ha
  have hsm : ∀ k ∈ wo ++ co, |k.X| ≤ 2 ^ 50 ∧ |k.Y| ≤ 2 ^ 50 ∧ |k.Z| ≤ 2 ^ 50 := fun k hk => hs k ((hmem k).mp hk)
  have hp := all_cells_closed (fun v => decide (v ∈ wo ++ co)) ord
    (ho.nodup_iff.mpr (gridCells_nodup _)) (by
      rintro k ⟨i, hi, hk⟩
      exact ho.mem_iff.mpr ((mem_gridCells_iff _ _).mpr ⟨i, hi, of_decide_eq_true hk⟩))
  have hm := hp.map (Prod.map (point64 b) (point64 b))
  have he : (ord.flatMap fun k => polygonize (cell b (lookupOf (wo ++ co)) k)).flatMap triEdges =
      (ord.flatMap fun k => shiftE k (symEdges (idx (fun v => decide (v ∈ wo ++ co)) k))).map
        (Prod.map (point64 b) (point64 b)) := by
    rw [List.flatMap_assoc, List.map_flatMap]
    apply List.flatMap_congr
    intro k hk
    rw [polygonize_64 b _ (cell_small hsm (ho.mem_iff.mp hk)) hg]
    unfold symEdges shiftE
    rw [List.flatMap_map, List.map_map, List.map_flatMap]
    rfl
  intro u v
  rw [he]
  have hsw : ((ord.flatMap fun k => shiftE k (symEdges (idx (fun v => decide (v ∈ wo ++ co)) k))).map
      Prod.swap).map (Prod.map (point64 b) (point64 b)) =
      ((ord.flatMap fun k => shiftE k (symEdges (idx (fun v => decide (v ∈ wo ++ co)) k))).map
        (Prod.map (point64 b) (point64 b))).map Prod.swap := by
    rw [List.map_map, List.map_map]
    rfl
  rw [hsw] at hm
  rw [hm.count_eq]
  exact List.count_map_of_injective _ Prod.swap Prod.swap_injective (v, u)

/-! ## When the half steps are exact -/

/-- Two coordinates of the same sign within a factor of two (and not tiny), or equal, or opposite. -/
def Near (x y : ℚ) : Prop :=
  x = y ∨ x = -y ∨ ((2 : ℚ) ^ (-1020 : Int) ≤ x ∧ x ≤ y ∧ y ≤ 2 * x) ∨ ((2 : ℚ) ^ (-1020 : Int) ≤ y ∧ y ≤ x ∧ x ≤ 2 * y) ∨
  ((2 : ℚ) ^ (-1020 : Int) ≤ -x ∧ -x ≤ -y ∧ -y ≤ 2 * -x) ∨ ((2 : ℚ) ^ (-1020 : Int) ≤ -y ∧ -y ≤ -x ∧ -x ≤ 2 * -y)

theorem half_near {x y : ℚ} (hx : Binary64 x) (hy : Binary64 y) (h1 : (2 : ℚ) ^ (-1020 : Int) ≤ x) (h2 : x ≤ y)
    (h3 : y ≤ 2 * x) : Binary64 ((y - x) / 2) := by
  have p : (2 : ℚ) ^ (-1021 : Int) ≤ 2 ^ (-1020 : Int) := zpow_le_zpow_right₀ (by norm_num) (by norm_num)
  have q : (0 : ℚ) < 2 ^ (-1020 : Int) := by positivity
  have a := binary64_halve hx (.inr (by rw [abs_of_nonneg (by linarith)]; linarith))
  have c := binary64_halve hy (.inr (by rw [abs_of_nonneg (by linarith)]; linarith))
  have := sterbenz a c (by linarith) (by linarith)
  rwa [← sub_div] at this

/-- Then half the step between them is a float64. -/
theorem half_of_near {x y : ℚ} (hx : Binary64 x) (hy : Binary64 y) (h : Near x y) : Binary64 ((y - x) / 2) := by
  have e : ∀ a b : ℚ, (a - b) / 2 = -((b - a) / 2) := fun a b => by ring
  rcases h with h | h | ⟨h1, h2, h3⟩ | ⟨h1, h2, h3⟩ | ⟨h1, h2, h3⟩ | ⟨h1, h2, h3⟩
  · rw [h, sub_self, zero_div]; exact binary64_zero
  · rw [h]
    have : (y - -y) / 2 = y := by ring
    rwa [this]
  · exact half_near hx hy h1 h2 h3
  · rw [e]; exact binary64_neg (half_near hy hx h1 h2 h3)
  · have := half_near (binary64_neg hx) (binary64_neg hy) h1 h2 h3
    have e2 : (y - x) / 2 = -((-y - -x) / 2) := by ring
    rw [e2]; exact binary64_neg this
  · have := half_near (binary64_neg hy) (binary64_neg hx) h1 h2 h3
    have e2 : (y - x) / 2 = (-x - -y) / 2 := by ring
    rw [e2]; exact this

theorem coord64_mem (v t : ℚ) (c : Int) : Binary64 (coord64 v t c) := rnd_mem _

/-- So cracks can only appear where the surface crosses the grid next to a coordinate plane. -/
theorem marching_closed_near {b : BinVOX F64} {tris : List (Tri (Vec F64))} (h : MarchingRun b tris) (hs : SmallGrid b)
    (hx : ∀ u v : Key, Present b u → ¬ Present b v → Adjacent u v → Near (centre64 b u).X (centre64 b v).X ∧
      Near (centre64 b u).Y (centre64 b v).Y ∧ Near (centre64 b u).Z (centre64 b v).Z) :
    Closed tris := by
  refine marching_closed_f64 h hs fun u v hu hv ha => ?_
  obtain ⟨h1, h2, h3⟩ := hx u v hu hv ha
  exact ⟨half_of_near (coord64_mem _ _ _) (coord64_mem _ _ _) h1,
    half_of_near (coord64_mem _ _ _) (coord64_mem _ _ _) h2,
    half_of_near (coord64_mem _ _ _) (coord64_mem _ _ _) h3⟩

theorem coord64_zero (v : ℚ) (c : Int) : coord64 v 0 c = rnd (((c : ℚ) + 1 / 2) * rnd (1 / v)) := by
  unfold coord64
  rw [add_zero, rnd_rnd]

theorem recip_big {v : ℚ} (h1 : 0 < v) (h2 : v ≤ 2 ^ 1000) : (2 : ℚ) ^ (-1000 : Int) ≤ rnd (1 / v) := by
  have : Binary64 ((2 : ℚ) ^ (-1000 : Int)) := ⟨1, -1000, by norm_num, by norm_num, by push_cast; ring⟩
  rw [← rnd_of_mem this]
  apply rnd_mono
  rw [le_div_iff₀ h1, zpow_neg, show ((2 : ℚ) ^ (1000 : Int)) = 2 ^ 1000 from zpow_ofNat 2 1000]
  rw [inv_mul_le_iff₀ (by positivity), mul_one]
  exact h2

theorem near_up {v : ℚ} (h1 : 0 < v) (h2 : v ≤ 2 ^ 1000) {c : Int} (hc : c = -1 ∨ 1 ≤ c) :
    Near (coord64 v 0 c) (coord64 v 0 (c + 1)) := by
  have hm := recip_big h1 h2
  rw [coord64_zero, coord64_zero]
  generalize rnd (1 / v) = m at *
  have p : (0 : ℚ) < 2 ^ (-1000 : Int) := by positivity
  rcases hc with rfl | hc
  · right; left
    rw [← rnd_neg]
    have e : (((-1 : Int) : ℚ) + 1 / 2) * m = -((((-1 + 1 : Int) : ℚ) + 1 / 2) * m) := by push_cast; ring
    rw [e]
  · right; right; left
    have hc' : (1 : ℚ) ≤ c := by exact_mod_cast hc
    have hpos : (0 : ℚ) < m := by linarith
    have big : (2 : ℚ) ^ (-1000 : Int) ≤ ((c : ℚ) + 1 / 2) * m := by
      calc (2 : ℚ) ^ (-1000 : Int) ≤ m := hm
        _ = 1 * m := by ring
        _ ≤ _ := mul_le_mul_of_nonneg_right (by linarith) hpos.le
    refine ⟨?_, ?_, ?_⟩
    · have : Binary64 ((2 : ℚ) ^ (-1020 : Int)) := ⟨1, -1020, by norm_num, by norm_num, by push_cast; ring⟩
      rw [← rnd_of_mem this]
      exact rnd_mono ((zpow_le_zpow_right₀ (by norm_num) (by norm_num)).trans big)
    · apply rnd_mono
      apply mul_le_mul_of_nonneg_right _ hpos.le
      push_cast
      linarith
    · rw [← rnd_double]
      · apply rnd_mono
        rw [← mul_assoc]
        apply mul_le_mul_of_nonneg_right _ hpos.le
        push_cast
        linarith
      · rw [abs_of_nonneg (by positivity)]
        exact (zpow_le_zpow_right₀ (by norm_num) (by norm_num)).trans big

theorem near_symm {x y : ℚ} (h : Near x y) : Near y x := by
  rcases h with h | h | h | h | h | h
  · exact .inl h.symm
  · exact .inr (.inl (by rw [h, neg_neg]))
  · exact .inr (.inr (.inr (.inl h)))
  · exact .inr (.inr (.inl h))
  · exact .inr (.inr (.inr (.inr (.inr h))))
  · exact .inr (.inr (.inr (.inr (.inl h))))

theorem near_axis {v : ℚ} (h1 : 0 < v) (h2 : v ≤ 2 ^ 1000) {c d : Int} (hc : 0 ≤ c) (hd : (c - d).natAbs ≤ 1)
    (hne : c + d ≠ 1) : Near (coord64 v 0 c) (coord64 v 0 d) := by
  rcases (by omega : c = d ∨ d = c + 1 ∨ c = d + 1) with rfl | rfl | rfl
  · exact .inl rfl
  · exact near_up h1 h2 (by omega)
  · exact near_symm (near_up h1 h2 (by omega))

/-- A model at the origin whose first two layers are the same in every direction has a closed surface, at any
    resolution. -/
theorem marching_closed_origin {b : BinVOX F64} {tris : List (Tri (Vec F64))} (h : MarchingRun b tris) (hs : SmallGrid b)
    (hT : b.TX.val = 0 ∧ b.TY.val = 0 ∧ b.TZ.val = 0) (hV : 0 < b.VoxelsPerMM.val ∧ b.VoxelsPerMM.val ≤ 2 ^ 1000)
    (hpos : ∀ k, Present b k → 0 ≤ k.X ∧ 0 ≤ k.Y ∧ 0 ≤ k.Z)
    (hsame : ∀ i j : Int, (Present b ⟨0, i, j⟩ ↔ Present b ⟨1, i, j⟩) ∧ (Present b ⟨i, 0, j⟩ ↔ Present b ⟨i, 1, j⟩) ∧
      (Present b ⟨i, j, 0⟩ ↔ Present b ⟨i, j, 1⟩)) : Closed tris := by
  refine marching_closed_near h hs fun u v hu hv ha => ?_
  obtain ⟨p1, p2, p3⟩ := hpos u hu
  obtain ⟨ux, uy, uz⟩ := u
  obtain ⟨vx, vy, vz⟩ := v
  unfold Adjacent at ha
  unfold centre64
  rw [hT.1, hT.2.1, hT.2.2]
  dsimp only at *
  refine ⟨near_axis hV.1 hV.2 p1 (by omega) fun hc => ?_, near_axis hV.1 hV.2 p2 (by omega) fun hc => ?_,
    near_axis hV.1 hV.2 p3 (by omega) fun hc => ?_⟩
  · have ey : uy = vy := by omega
    have ez : uz = vz := by omega
    subst ey; subst ez
    rcases (by omega : (ux = 0 ∧ vx = 1) ∨ (ux = 1 ∧ vx = 0)) with ⟨rfl, rfl⟩ | ⟨rfl, rfl⟩
    · exact hv ((hsame _ _).1.mp hu)
    · exact hv ((hsame _ _).1.mpr hu)
  · have ex : ux = vx := by omega
    have ez : uz = vz := by omega
    subst ex; subst ez
    rcases (by omega : (uy = 0 ∧ vy = 1) ∨ (uy = 1 ∧ vy = 0)) with ⟨rfl, rfl⟩ | ⟨rfl, rfl⟩
    · exact hv ((hsame _ _).2.1.mp hu)
    · exact hv ((hsame _ _).2.1.mpr hu)
  · have ex : ux = vx := by omega
    have ey : uy = vy := by omega
    subst ex; subst ey
    rcases (by omega : (uz = 0 ∧ vz = 1) ∨ (uz = 1 ∧ vz = 0)) with ⟨rfl, rfl⟩ | ⟨rfl, rfl⟩
    · exact hv ((hsame _ _).2.2.mp hu)
    · exact hv ((hsame _ _).2.2.mpr hu)

theorem not_closed_of_perm {P : Type} [DecidableEq P] {ts us : List (Tri P)} (h : ts.Perm us)
    (hu : ((us.flatMap triEdges).isPerm ((us.flatMap triEdges).map Prod.swap)) = false) : ¬ Closed ts := by
  rw [closed_iff_perm]
  intro hc
  have hp := h.flatMap_right triEdges
  have := hp.symm.trans (hc.trans (hp.map Prod.swap))
  rw [← List.isPerm_iff, hu] at this
  exact Bool.false_ne_true this

/-! ## A crack -/

/-- One voxel at the origin, three voxels per millimetre. -/
def crackModel : BinVOX F64 where
  NX := 3
  NY := 3
  NZ := 3
  TX := of 0
  TY := of 0
  TZ := of 0
  Scale := of 1
  WhiteVoxels := some [(⟨0, 0, 0⟩, ())]
  ColorVoxels := none

/-- **C84, the defect.**  The marching-cubes surface of a single voxel at the origin with three voxels per millimetre is
    not closed in float64: the vertex between voxels 0 and 1 is 0.3333333333333333 computed from one end and
    0.33333333333333337 computed from the other. -/
theorem marching_cracks {tris : List (Tri (Vec F64))} (h : MarchingRun crackModel tris) : ¬ Closed tris := by
  have h0 : MarchingRun crackModel ((gridCellsOf [⟨0, 0, 0⟩]).keys.flatMap fun k =>
      polygonize (cell crackModel (lookupOf [⟨0, 0, 0⟩]) k)) :=
    ⟨[⟨0, 0, 0⟩], [], _, List.Perm.refl _, List.Perm.refl _, List.Perm.refl _, rfl⟩
  exact not_closed_of_perm (marching_runs_perm h h0) (by decide +kernel)

/-- One voxel at the origin of a grid with three voxels per millimetre that starts at -1/3. -/
def crackModel32 : BinVOX F64 := { crackModel with TX := of (-1 / 3) }

/-- **C84, the defect in a file.**  The STL file written for a single voxel of a grid with three voxels per millimetre
    that starts at x = -1/3 is not closed either: 2^-55 and 0 are different as float32 too. -/
theorem marching_cracks_file {lib : Cmd.GL F64} (hb : ∀ a, lib.bits a = encode32 a.val) {parseF : Bytes → F64}
    {tris : List (Tri (Vec F64))} (h : MarchingRun crackModel32 tris) (hl : (lib.stl tris).length < 84 + 50 * 4294967296) :
    ∃ ts, StlText.stlToMesh f32 parseF (lib.stl tris) = .ok ts ∧ ¬ Closed ts := by
  have h0 : MarchingRun crackModel32 ((gridCellsOf [⟨0, 0, 0⟩]).keys.flatMap fun k =>
      polygonize (cell crackModel32 (lookupOf [⟨0, 0, 0⟩]) k)) :=
    ⟨[⟨0, 0, 0⟩], [], _, List.Perm.refl _, List.Perm.refl _, List.Perm.refl _, rfl⟩
  refine ⟨_, Cmd.stl_parses lib tris hl, not_closed_of_perm ((marching_runs_perm h h0).map _) ?_⟩
  have : lib.bits = fun a => encode32 a.val := funext hb
  rw [this]
  decide +kernel

/-- Where the half steps are exact, the STL file is closed. -/
theorem marching_stl_f64 {lib : Cmd.GL F64} {parseF : Bytes → F64} {b : BinVOX F64} {tris : List (Tri (Vec F64))}
    (h : MarchingRun b tris) (hs : SmallGrid b) (hl : (lib.stl tris).length < 84 + 50 * 4294967296)
    (hx : ∀ u v : Key, Present b u → ¬ Present b v → Adjacent u v → HalfStep (centre64 b u) (centre64 b v)) :
    ∃ ts, StlText.stlToMesh f32 parseF (lib.stl tris) = .ok ts ∧ Closed ts :=
  ⟨_, Cmd.stl_parses lib tris hl, closed_move _ (marching_closed_f64 h hs hx)⟩

/-- Where the vertices are: the float64 nearest to the middle between the two centres as computed. -/
theorem marching_vertices_f64 {b : BinVOX F64} {tris : List (Tri (Vec F64))} (h : MarchingRun b tris) (hs : SmallGrid b)
    (hx : ∀ u v : Key, Present b u → ¬ Present b v → Adjacent u v → HalfStep (centre64 b u) (centre64 b v))
    {t : Tri (Vec F64)} (ht : t ∈ tris) {p : Vec F64} (hp : p = t.V1 ∨ p = t.V2 ∨ p = t.V3) :
    ∃ u v : Key, Present b u ∧ ¬ Present b v ∧ Adjacent u v ∧
      NearestEven Binary64 (midpoint (centre64 b u) (centre64 b v)).X p.X.val ∧
      NearestEven Binary64 (midpoint (centre64 b u) (centre64 b v)).Y p.Y.val ∧
      NearestEven Binary64 (midpoint (centre64 b u) (centre64 b v)).Z p.Z.val := by
  obtain ⟨wo, co, ord, hw, hc, ho, rfl⟩ := h
  have hmem : ∀ k, k ∈ wo ++ co ↔ Present b k := present_iff b hw hc
  have hg : GoodCrossings b (wo ++ co) := fun u v hu hv ha =>
    hx u v ((hmem u).mp hu) (fun h => hv ((hmem v).mpr h)) ha
  have hsm : ∀ k ∈ wo ++ co, |k.X| ≤ 2 ^ 50 ∧ |k.Y| ≤ 2 ^ 50 ∧ |k.Z| ≤ 2 ^ 50 := fun k hk => hs k ((hmem k).mp hk)
  obtain ⟨k, hk, htk⟩ := List.mem_flatMap.mp ht
  rw [polygonize_64 b _ (cell_small hsm (ho.mem_iff.mp hk)) hg] at htk
  obtain ⟨s, hsm, rfl⟩ := List.mem_map.mp htk
  have hr := List.mem_range.mpr (idx_lt (fun v => decide (v ∈ wo ++ co)) k)
  obtain ⟨l1, l2, l3, m1, m2, m3⟩ := (triTable_edges _ hr).1 s hsm
  have key : ∀ e < 12, (edgeTable.getD (idx (fun v => decide (v ∈ wo ++ co)) k) 0).testBit e = true →
      p = point64 b (gmid k e) → ∃ u v : Key, Present b u ∧ ¬ Present b v ∧ Adjacent u v ∧
      NearestEven Binary64 (midpoint (centre64 b u) (centre64 b v)).X p.X.val ∧
      NearestEven Binary64 (midpoint (centre64 b u) (centre64 b v)).Y p.Y.val ∧
      NearestEven Binary64 (midpoint (centre64 b u) (centre64 b v)).Z p.Z.val := by
    intro e he hbit hpe
    rw [← mid64_point b k he] at hpe
    have hm := edge_mixed he hbit
    have ha := corner_adjacent k he
    have fin : ∀ c d : Vec ℚ, p = mid64 c d → NearestEven Binary64 (midpoint c d).X p.X.val ∧
        NearestEven Binary64 (midpoint c d).Y p.Y.val ∧ NearestEven Binary64 (midpoint c d).Z p.Z.val := by
      intro c d h
      subst h
      exact ⟨rnd_nearestEven _, rnd_nearestEven _, rnd_nearestEven _⟩
    by_cases h1 : corner k (edgeEnds e).1 ∈ wo ++ co
    · by_cases h2 : corner k (edgeEnds e).2 ∈ wo ++ co
      · simp [h1, h2] at hm
      · exact ⟨_, _, (hmem _).mp h1, fun h => h2 ((hmem _).mpr h), ha, fin _ _ hpe⟩
    · by_cases h2 : corner k (edgeEnds e).2 ∈ wo ++ co
      · exact ⟨_, _, (hmem _).mp h2, fun h => h1 ((hmem _).mpr h), adjacent_symm ha, fin _ _ (hpe.trans (mid64_comm _ _))⟩
      · simp [h1, h2] at hm
  rcases hp with hp | hp | hp
  · exact key _ l1 m1 hp
  · exact key _ l2 m2 hp
  · exact key _ l3 m3 hp

/-! ## The hypotheses are met -/

/-- A cube of eight voxels at the origin, three voxels per millimetre. -/
def cubeModel : BinVOX F64 := { crackModel with
  WhiteVoxels := some [(⟨0, 0, 0⟩, ()), (⟨0, 0, 1⟩, ()), (⟨0, 1, 0⟩, ()), (⟨0, 1, 1⟩, ()), (⟨1, 0, 0⟩, ()), (⟨1, 0, 1⟩, ()),
    (⟨1, 1, 0⟩, ()), (⟨1, 1, 1⟩, ())] }

theorem cubeModel_present (k : Key) : Present cubeModel k ↔ (k.X = 0 ∨ k.X = 1) ∧ (k.Y = 0 ∨ k.Y = 1) ∧ (k.Z = 0 ∨ k.Z = 1) := by
  have h := present_iff cubeModel (List.Perm.refl _) (List.Perm.refl _) k
  rw [← h]
  obtain ⟨x, y, z⟩ := k
  show (⟨x, y, z⟩ : Key) ∈ ([⟨0, 0, 0⟩, ⟨0, 0, 1⟩, ⟨0, 1, 0⟩, ⟨0, 1, 1⟩, ⟨1, 0, 0⟩, ⟨1, 0, 1⟩, ⟨1, 1, 0⟩, ⟨1, 1, 1⟩] : List Key) ↔ _
  simp only [List.mem_cons, List.not_mem_nil, or_false, Key.mk.injEq]
  omega

/-- The cube is closed in float64, while a single voxel is not. -/
example {tris : List (Tri (Vec F64))} (h : MarchingRun cubeModel tris) : Closed tris := by
  refine marching_closed_origin h (fun k hk => ?_) ⟨rfl, rfl, rfl⟩ ⟨by decide +kernel, ?_⟩ (fun k hk => ?_) fun i j => ?_
  · rw [cubeModel_present] at hk
    rw [abs_le, abs_le, abs_le]
    omega
  · have : cubeModel.VoxelsPerMM.val = 3 := by decide +kernel
    rw [this]
    exact (by norm_num : (3 : ℚ) ≤ 2 ^ 2).trans (pow_le_pow_right₀ (by norm_num) (by norm_num))
  · rw [cubeModel_present] at hk
    omega
  · refine ⟨?_, ?_, ?_⟩ <;> rw [cubeModel_present, cubeModel_present] <;> dsimp only <;> omega

/-- Where the boundary of the cube is crossed, along one axis: between -1 and 0 or between 1 and 2. -/
theorem cubeModel_cross {u v : Key} (hu : Present cubeModel u) (hv : ¬ Present cubeModel v) (ha : Adjacent u v) :
    (u.X = v.X ∨ (u.X = 0 ∧ v.X = -1) ∨ (u.X = 1 ∧ v.X = 2)) ∧ (u.Y = v.Y ∨ (u.Y = 0 ∧ v.Y = -1) ∨ (u.Y = 1 ∧ v.Y = 2)) ∧
      (u.Z = v.Z ∨ (u.Z = 0 ∧ v.Z = -1) ∨ (u.Z = 1 ∧ v.Z = 2)) := by
  rw [cubeModel_present] at hu hv
  unfold Adjacent at ha
  omega

theorem cubeModel_small : SmallGrid cubeModel := by
  intro k hk
  rw [cubeModel_present] at hk
  rw [abs_le, abs_le, abs_le]
  omega

theorem cubeModel_half (u v : Key) (hu : Present cubeModel u) (hv : ¬ Present cubeModel v) (ha : Adjacent u v) :
    HalfStep (centre64 cubeModel u) (centre64 cubeModel v) := by
  obtain ⟨hx, hy, hz⟩ := cubeModel_cross hu hv ha
  have z : ∀ x : ℚ, Binary64 ((x - x) / 2) := fun x => by rw [sub_self, zero_div]; exact (mem_iff 0).mpr (by decide +kernel)
  have b1 : Binary64 ((coord64 cubeModel.VoxelsPerMM.val 0 (-1) - coord64 cubeModel.VoxelsPerMM.val 0 0) / 2) := (mem_iff _).mpr (by decide +kernel)
  have b2 : Binary64 ((coord64 cubeModel.VoxelsPerMM.val 0 2 - coord64 cubeModel.VoxelsPerMM.val 0 1) / 2) := (mem_iff _).mpr (by decide +kernel)
  have key : ∀ {a c : Int}, (a = c ∨ (a = 0 ∧ c = -1) ∨ (a = 1 ∧ c = 2)) →
      Binary64 ((coord64 cubeModel.VoxelsPerMM.val 0 c - coord64 cubeModel.VoxelsPerMM.val 0 a) / 2) := by
    rintro a c (rfl | ⟨rfl, rfl⟩ | ⟨rfl, rfl⟩)
    · exact z _
    · exact b1
    · exact b2
  exact ⟨key hx, key hy, key hz⟩

theorem cubeModel_near (u v : Key) (hu : Present cubeModel u) (hv : ¬ Present cubeModel v) (ha : Adjacent u v) :
    Near (centre64 cubeModel u).X (centre64 cubeModel v).X ∧ Near (centre64 cubeModel u).Y (centre64 cubeModel v).Y ∧
      Near (centre64 cubeModel u).Z (centre64 cubeModel v).Z := by
  obtain ⟨hx, hy, hz⟩ := cubeModel_cross hu hv ha
  have b1 : Near (coord64 cubeModel.VoxelsPerMM.val 0 0) (coord64 cubeModel.VoxelsPerMM.val 0 (-1)) := .inr (.inl (by decide +kernel))
  have b2 : Near (coord64 cubeModel.VoxelsPerMM.val 0 1) (coord64 cubeModel.VoxelsPerMM.val 0 2) := by
    have h1 : (1 : ℚ) / 4 ≤ coord64 cubeModel.VoxelsPerMM.val 0 1 := by decide +kernel
    exact .inr (.inr (.inl ⟨le_trans (le_trans (zpow_le_zpow_right₀ (by norm_num) (by norm_num : (-1020 : Int) ≤ -2)) (by norm_num)) h1,
      by decide +kernel, by decide +kernel⟩))
  have key : ∀ {a c : Int}, (a = c ∨ (a = 0 ∧ c = -1) ∨ (a = 1 ∧ c = 2)) →
      Near (coord64 cubeModel.VoxelsPerMM.val 0 a) (coord64 cubeModel.VoxelsPerMM.val 0 c) := by
    rintro a c (rfl | ⟨rfl, rfl⟩ | ⟨rfl, rfl⟩)
    · exact .inl rfl
    · exact b1
    · exact b2
  exact ⟨key hx, key hy, key hz⟩

/-- `marching_closed_f64`, `marching_closed_near`, `marching_stl_f64` and `marching_vertices_f64` on the cube. -/
example : ∃ tris, MarchingRun cubeModel tris ∧ tris ≠ [] ∧ Closed tris := by
  have h : MarchingRun cubeModel _ := ⟨_, _, _, List.Perm.refl _, List.Perm.refl _, List.Perm.refl _, rfl⟩
  have hc := marching_closed_f64 h cubeModel_small cubeModel_half
  have := marching_closed_near h cubeModel_small cubeModel_near
  exact ⟨_, h, by decide +kernel, hc⟩

example {lib : Cmd.GL F64} {parseF : Bytes → F64} {tris : List (Tri (Vec F64))} (h : MarchingRun cubeModel tris)
    (hl : (lib.stl tris).length < 84 + 50 * 4294967296) : ∃ ts, StlText.stlToMesh f32 parseF (lib.stl tris) = .ok ts ∧ Closed ts :=
  marching_stl_f64 h cubeModel_small hl cubeModel_half

example {tris : List (Tri (Vec F64))} (h : MarchingRun cubeModel tris) {t : Tri (Vec F64)} (ht : t ∈ tris) :=
  marching_vertices_f64 h cubeModel_small cubeModel_half ht (.inl rfl)

/-- `marching_cracks` and `marching_cracks_file`: these runs exist. -/
example : ∃ tris, MarchingRun crackModel tris ∧ ¬ Closed tris := by
  obtain ⟨tris, h⟩ := marching_run_exists crackModel
  exact ⟨tris, h, marching_cracks h⟩

example {lib : Cmd.GL F64} (hb : ∀ a, lib.bits a = encode32 a.val) {parseF : Bytes → F64} : ∃ (tris : List (Tri (Vec F64))) (ts : List (Tri (Vec F64))),
    MarchingRun crackModel32 tris ∧ StlText.stlToMesh f32 parseF (lib.stl tris) = .ok ts ∧ ¬ Closed ts := by
  have h : MarchingRun crackModel32 _ := ⟨_, _, _, List.Perm.refl _, List.Perm.refl _, List.Perm.refl _, rfl⟩
  obtain ⟨ts, h1, h2⟩ := marching_cracks_file hb h (by rw [Cmd.stl_length]; decide +kernel) (parseF := parseF)
  exact ⟨_, ts, h, h1, h2⟩

end Marching
end StlDice
