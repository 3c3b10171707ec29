import Verif.Spec.IeeeMesh
import Verif.Props.Ieee
import Verif.Props.FloatMesh

/-! # C114: meshes in all of float64 -/

namespace StlDice
open Spec GoFloat BinVOX IeeeL F64

variable {b : BinVOX F64} {c : BinVOX Ieee}

/-! ## No negative zeros -/

/-- Not the negative zero. -/
def NoNeg (y : Ieee) : Prop := ∀ h, y ≠ .fin true 0 h

theorem plain_of {x : F64} {y : Ieee} (h : Is x y) (hn : NoNeg y) : y = plain x := by
  obtain ⟨s, a, hh, rfl, e⟩ := h
  have e' : |x.val| = a := by
    rw [← e]
    cases s
    · exact abs_of_nonneg hh.1
    · exact (abs_neg a).trans (abs_of_nonneg hh.1)
  unfold plain Ieee.round
  have hr : rnd |x.val| = a := by rw [e', hh.2.2]
  rw [dif_pos (by rw [hr]; exact hh.2.1)]
  congr 1
  · by_cases h0 : x.val = 0
    · rw [if_pos h0]
      cases s
      · rfl
      · have a0 : a = 0 := by rw [← e', h0, abs_zero]
        subst a0
        exact absurd rfl (hn hh)
    · rw [if_neg h0, ← e]
      cases s
      · exact (decide_eq_false (not_lt.mpr hh.1)).symm
      · have : a ≠ 0 := fun h => h0 (by rw [← e, h]; simp)
        have : 0 < a := lt_of_le_of_ne hh.1 this.symm
        exact (decide_eq_true (show -a < 0 by linarith)).symm
  · exact hr.symm

theorem noNeg_round {z : Bool} {q : ℚ} (h0 : q = 0 → z = false) (h1 : q ≠ 0 → rnd |q| ≠ 0) : NoNeg (Ieee.round z q) := by
  intro hh e
  unfold Ieee.round at e
  split at e
  · injection e with e1 e2
    by_cases hq : q = 0
    · rw [if_pos hq, h0 hq] at e1
      cases e1
    · exact h1 hq e2
  · cases e

theorem noNeg_ofInt (i : Int) : NoNeg (ofInt i) := by
  refine noNeg_round (fun _ => rfl) fun h => ?_
  have h1 : (1 : ℚ) ≤ |((i : Int) : ℚ)| := by
    have : i ≠ 0 := fun h' => h (by rw [h']; norm_num)
    exact_mod_cast Int.one_le_abs this
  have := rnd_mono h1
  rw [show rnd 1 = 1 from rnd_of_mem ⟨1, 0, by norm_num, by norm_num, by norm_num⟩] at this
  intro h0
  linarith

theorem grain {x : ℚ} (h : Binary64 x) : ∃ n : Int, x = n * (2 : ℚ) ^ (-1074 : Int) := by
  obtain ⟨m, e, -, he, rfl⟩ := h
  refine ⟨m * 2 ^ (e + 1074).toNat, ?_⟩
  push_cast
  rw [mul_assoc, ← zpow_natCast, ← zpow_add₀ (by norm_num)]
  congr 2
  omega

theorem rnd_ne_zero {q : ℚ} (h : (2 : ℚ) ^ (-1074 : Int) ≤ q) : rnd q ≠ 0 := by
  have := rnd_mono h
  rw [rnd_of_mem (⟨1, -1074, by norm_num, le_rfl, by norm_num⟩ : Binary64 ((2 : ℚ) ^ (-1074 : Int)))] at this
  have h0 : (0 : ℚ) < 2 ^ (-1074 : Int) := by positivity
  intro h1
  linarith

theorem noNeg_add {x x' : F64} {y y' : Ieee} (h : Is x y) (h' : Is x' y') (hn : NoNeg y ∨ NoNeg y') : NoNeg (add y y') := by
  obtain ⟨s, a, hh, rfl, e⟩ := h
  obtain ⟨t, b, hk, rfl, e'⟩ := h'
  have e1 : Ieee.signed s a = x.val := e
  have e2 : Ieee.signed t b = x'.val := e'
  show NoNeg (Ieee.round (s && t) (Ieee.signed s a + Ieee.signed t b))
  refine noNeg_round (fun h0 => ?_) fun h0 => ?_
  · by_contra hc
    have : s = true ∧ t = true := by
      cases s <;> cases t <;> simp at hc ⊢
    obtain ⟨rfl, rfl⟩ := this
    have h0 : -a + -b = 0 := h0
    have a0 : a = 0 := by linarith [hh.1, hk.1]
    have b0 : b = 0 := by linarith [hh.1, hk.1]
    subst a0 b0
    rcases hn with hn | hn
    · exact hn hh rfl
    · exact hn hk rfl
  · rw [e1, e2] at h0 ⊢
    obtain ⟨m, hm⟩ := grain (val_mem x)
    obtain ⟨n, hn⟩ := grain (val_mem x')
    have hs : x.val + x'.val = ((m + n : Int) : ℚ) * 2 ^ (-1074 : Int) := by rw [hm, hn]; push_cast; ring
    rw [hs] at h0 ⊢
    have hp : (0 : ℚ) < 2 ^ (-1074 : Int) := by positivity
    have hz : m + n ≠ 0 := fun hz => h0 (by rw [hz]; norm_num)
    refine rnd_ne_zero ?_
    rw [abs_mul, abs_of_pos hp]
    have : (1 : ℚ) ≤ |((m + n : Int) : ℚ)| := by exact_mod_cast Int.one_le_abs hz
    exact le_mul_of_one_le_left hp.le this

theorem noNeg_mul {x x' : F64} {y y' : Ieee} (h : Is x y) (h' : Is x' y') (hn : NoNeg y) (hx : x.val = 0 ∨ 1 / 2 ≤ |x.val|)
    (hp : 1 / 2 ^ 300 ≤ x'.val) : NoNeg (mul y y') := by
  obtain ⟨s, a, hh, rfl, e⟩ := h
  obtain ⟨t, b, hk, rfl, e'⟩ := h'
  have e1 : Ieee.signed s a = x.val := e
  have e2 : Ieee.signed t b = x'.val := e'
  have p0 : 0 < x'.val := lt_of_lt_of_le (by positivity) hp
  have ht : t = false := by
    cases t
    · rfl
    · have e2 : -b = x'.val := e2
      linarith [hk.1]
  subst ht
  show NoNeg (Ieee.round (s != false) (Ieee.signed s a * Ieee.signed false b))
  rw [e1, e2]
  refine noNeg_round (fun h0 => ?_) fun h0 => ?_
  · have x0 : x.val = 0 := (mul_eq_zero.mp h0).resolve_right p0.ne'
    cases s
    · rfl
    · have a0 : a = 0 := by
        have e1 : -a = x.val := e1
        linarith
      subst a0
      exact absurd rfl (hn hh)
  · have hx : 1 / 2 ≤ |x.val| := hx.resolve_left fun h => h0 (by rw [h, zero_mul])
    refine rnd_ne_zero ?_
    rw [abs_mul, abs_of_pos p0]
    have : (1 / 2 : ℚ) * (1 / 2 ^ 300) ≤ |x.val| * x'.val := mul_le_mul hx hp (by positivity) (abs_nonneg _)
    refine le_trans ?_ this
    have e : (1 / 2 : ℚ) * (1 / 2 ^ 300) = 2 ^ (-301 : Int) := by
      rw [show (-301 : Int) = -1 + -(300 : Nat) from rfl, zpow_add₀ (by norm_num), zpow_neg, zpow_neg, zpow_natCast, zpow_one, one_div, one_div]
    rw [e]
    exact zpow_le_zpow_right₀ (by norm_num) (by norm_num)

/-! ## Places in the grid -/

theorem model_vpmm (hb : IsModel b c) (hm : ModerateModel b) : IsP 202 b.VoxelsPerMM c.VoxelsPerMM := by
  have h := vpmm_is hb.scale hm.lo hm.hi hm.dim
  unfold BinVOX.VoxelsPerMM at *
  rw [hb.nx, hb.ny, hb.nz]
  exact h

/-- The side of a voxel. -/
theorem model_side (hb : IsModel b c) (hm : ModerateModel b) :
    IsP 201 (div (ofInt 1) b.VoxelsPerMM) (div (ofInt 1) c.VoxelsPerMM) := by
  have v0 : 0 < b.VoxelsPerMM.val := lt_of_lt_of_le (by positivity) hm.lo
  refine Is.div (c := 200) isP_one.1 (model_vpmm hb hm).1 v0.ne' ?_ (by norm_num)
  have h1 : (ofInt 1 : F64).val = 1 := by decide +kernel
  rw [h1, abs_of_pos (by positivity), div_le_iff₀ v0]
  have := hm.lo
  rw [div_le_iff₀ (by positivity)] at this
  rwa [mul_comm]

theorem side_pos (hm : ModerateModel b) : 1 / 2 ^ 300 ≤ (div (ofInt 1) b.VoxelsPerMM : F64).val := by
  have v0 : 0 < b.VoxelsPerMM.val := lt_of_lt_of_le (by positivity) hm.lo
  have h1 : (ofInt 1 : F64).val = 1 := by decide +kernel
  show _ ≤ rnd ((ofInt 1 : F64).val / b.VoxelsPerMM.val)
  rw [h1]
  have h2 : (2 : ℚ) ^ (-200 : Int) ≤ 1 / b.VoxelsPerMM.val := by
    rw [le_div_iff₀ v0, zpow_neg, inv_mul_le_iff₀ (by positivity), mul_one]
    exact_mod_cast hm.hi
  have := rnd_mono h2
  rw [rnd_of_mem (⟨1, -200, by norm_num, by norm_num, by norm_num⟩ : Binary64 ((2 : ℚ) ^ (-200 : Int)))] at this
  refine le_trans ?_ this
  rw [one_div, ← zpow_natCast, ← zpow_neg]
  exact zpow_le_zpow_right₀ (by norm_num) (by norm_num)

theorem isP_index {i : Int} (h : |i| ≤ 2 ^ 52) : IsP 53 (ofInt i) (ofInt i) := isP_ofInt (n := 52) (by exact_mod_cast h) (by norm_num)

/-- A whole number of half voxels. -/
def Halves (x : F64) (n : Int) : Prop := x.val = (n : ℚ) / 2

theorem halves_ofInt {i : Int} (h : |i| ≤ 2 ^ 53) : Halves (ofInt i) (2 * i) := by
  unfold Halves
  rw [Marching.ofInt_val h]
  push_cast
  ring

theorem halves_add {x y : F64} {m n : Int} (hx : Halves x m) (hy : Halves y n) (h : |m + n| ≤ 2 ^ 53) : Halves (add x y) (m + n) := by
  show rnd (x.val + y.val) = _
  rw [hx, hy]
  have : (m : ℚ) / 2 + (n : ℚ) / 2 = ((m + n : Int) : ℚ) / 2 := by push_cast; ring
  rw [this, rnd_of_mem (binary64_half h)]

theorem model_color (hb : IsModel b c) : c.color.keys = b.color.keys := hb.color

theorem place_is (hb : IsModel b c) (hm : ModerateModel b) {x t : F64} {x' t' : Ieee} (hx : IsP 60 x x') (hn : NoNeg x') {n : Int}
    (hh : Halves x n) (ht : Is t t') (h2 : |t.val| ≤ 2 ^ 200) :
    IsP 264 (add (mul x (div (ofInt 1) b.VoxelsPerMM)) t) (add (mul x' (div (ofInt 1) c.VoxelsPerMM)) t') ∧
      NoNeg (add (mul x' (div (ofInt 1) c.VoxelsPerMM)) t') := by
  have h1 := hx.mul (model_side hb hm) (by norm_num)
  refine ⟨h1.add 262 (b := 200) ⟨ht, h2⟩ (by norm_num) (by norm_num) (by norm_num), noNeg_add h1.1 ht (.inl ?_)⟩
  refine noNeg_mul hx.1 (model_side hb hm).1 hn ?_ (side_pos hm)
  rw [hh]
  exact Manifold.halfInt n

theorem same_split {ts : List (Tri (Vec F64))} {us : List (Tri (Vec Ieee))}
    (h : List.Forall₂ (fun t u => IsTri t u ∧ u = moveTri plainVec t) ts us) : SameTris ts us ∧ us = ts.map (moveTri plainVec) := by
  induction h with
  | nil => exact ⟨.nil, rfl⟩
  | cons h _ ih => exact ⟨.cons h.1 ih.1, by rw [List.map_cons, ← h.2, ← ih.2]⟩

namespace Marching

theorem isoLaws_ieee : IsoLaws Ieee where
  absent := by decide +kernel
  present := by decide +kernel

def halfIeee (x y : Ieee) : Ieee := add x (mul (lit (1 / 2)) (sub y x))

theorem vertexInterp_ieee (p q : Vec Ieee) (a : Bool) :
    vertexInterp iso p q (if a then (ofInt 1 : Ieee) else ofInt 0) (if !a then (ofInt 1 : Ieee) else ofInt 0) =
      ⟨halfIeee p.X q.X, halfIeee p.Y q.Y, halfIeee p.Z q.Z⟩ := by
  unfold vertexInterp halfIeee
  cases a
  · have e1 : lt (goAbs (sub (iso : Ieee) (ofInt 0))) (epsilon : Ieee) = false := by decide +kernel
    have e2 : lt (goAbs (sub (iso : Ieee) (ofInt 1))) (epsilon : Ieee) = false := by decide +kernel
    have e3 : lt (goAbs (sub (ofInt 0 : Ieee) (ofInt 1))) (epsilon : Ieee) = false := by decide +kernel
    have e4 : div (sub (iso : Ieee) (ofInt 0)) (sub (ofInt 1) (ofInt 0)) = (lit (1 / 2) : Ieee) := by decide +kernel
    simp only [Bool.not_false, if_true, Bool.false_eq_true, if_false, e1, e2, e3, e4]
  · have e1 : lt (goAbs (sub (iso : Ieee) (ofInt 0))) (epsilon : Ieee) = false := by decide +kernel
    have e2 : lt (goAbs (sub (iso : Ieee) (ofInt 1))) (epsilon : Ieee) = false := by decide +kernel
    have e3 : lt (goAbs (sub (ofInt 1 : Ieee) (ofInt 0))) (epsilon : Ieee) = false := by decide +kernel
    have e4 : div (sub (iso : Ieee) (ofInt 1)) (sub (ofInt 0) (ofInt 1)) = (lit (1 / 2) : Ieee) := by decide +kernel
    simp only [Bool.not_true, if_true, Bool.false_eq_true, if_false, e1, e2, e3, e4]

theorem vertlist_ieee (c : BinVOX Ieee) (vs : List Key) (k : Key) {e : Nat} (he : e < 12)
    (hbit : (edgeTable.getD (idx (fun v => decide (v ∈ vs)) k) 0).testBit e = true) :
    vertlist (cell c (lookupOf vs) k) (edgeTable.getD (idx (fun v => decide (v ∈ vs)) k) 0) e =
      ⟨halfIeee (voxelToVector c k (cornerOff (edgeEnds e).1)).X (voxelToVector c k (cornerOff (edgeEnds e).2)).X,
       halfIeee (voxelToVector c k (cornerOff (edgeEnds e).1)).Y (voxelToVector c k (cornerOff (edgeEnds e).2)).Y,
       halfIeee (voxelToVector c k (cornerOff (edgeEnds e).1)).Z (voxelToVector c k (cornerOff (edgeEnds e).2)).Z⟩ := by
  have hm := edge_mixed he hbit
  unfold vertlist
  rw [if_pos hbit]
  show vertexInterp iso (voxelToVector c k (cornerOff _)) (voxelToVector c k (cornerOff _))
    (((lookupOf vs : GoMap Key Ieee).get (corner k (edgeEnds e).1)).getD (ofInt 0))
    (((lookupOf vs : GoMap Key Ieee).get (corner k (edgeEnds e).2)).getD (ofInt 0)) = _
  rw [lookup_get, lookup_get]
  have key := vertexInterp_ieee (voxelToVector c k (cornerOff (edgeEnds e).1)) (voxelToVector c k (cornerOff (edgeEnds e).2))
    (decide (corner k (edgeEnds e).1 ∈ vs))
  refine Eq.trans ?_ key
  by_cases h1 : corner k (edgeEnds e).1 ∈ vs <;> by_cases h2 : corner k (edgeEnds e).2 ∈ vs <;> simp [h1, h2] at hm ⊢

theorem coord_is (hb : IsModel b c) (hm : ModerateModel b) {k d : Int} (hk : |k| ≤ 2 ^ 51) (hd : |d| ≤ 1) {t : F64} {t' : Ieee}
    (ht : Is t t') (h2 : |t.val| ≤ 2 ^ 200) :
    IsP 264 (add (mul (add (add (ofInt k) (lit (1 / 2))) (ofInt d)) (div (ofInt 1) b.VoxelsPerMM)) t)
      (add (mul (add (add (ofInt k) (lit (1 / 2))) (ofInt d)) (div (ofInt 1) c.VoxelsPerMM)) t') ∧
    NoNeg (add (mul (add (add (ofInt k) (lit (1 / 2))) (ofInt d)) (div (ofInt 1) c.VoxelsPerMM)) t') := by
  obtain ⟨k1, k2⟩ := abs_le.mp hk
  obtain ⟨d1, d2⟩ := abs_le.mp hd
  have h1 := (isP_index (i := k) (hk.trans (by norm_num))).add 53 isP_half (by norm_num) (by norm_num) (by norm_num)
  have hd1 := isP_index (i := d) (hd.trans (by norm_num))
  have hh : Halves (lit (1 / 2)) 1 := by
    unfold Halves
    rw [lit_half]
    norm_num
  refine place_is hb hm (IsP.mono (h1.add 55 hd1 (by norm_num) (by norm_num) (by norm_num)) (by norm_num))
    (noNeg_add h1.1 hd1.1 (.inr (noNeg_ofInt d)))
    (halves_add (halves_add (halves_ofInt (abs_le.mpr ⟨by omega, by omega⟩)) hh (abs_le.mpr ⟨by omega, by omega⟩))
      (halves_ofInt (abs_le.mpr ⟨by omega, by omega⟩)) (abs_le.mpr ⟨by omega, by omega⟩)) ht h2

/-- Related, with a bound, and no negative zero. -/
def Good (x : F64) (y : Ieee) : Prop := IsP 264 x y ∧ NoNeg y

theorem corner_is (hb : IsModel b c) (hm : ModerateModel b) {k : Key} (hk : CellSmall k) {i : Nat} (hi : i < 8) :
    Good (voxelToVector b k (cornerOff i)).X (voxelToVector c k (cornerOff i)).X ∧
    Good (voxelToVector b k (cornerOff i)).Y (voxelToVector c k (cornerOff i)).Y ∧
    Good (voxelToVector b k (cornerOff i)).Z (voxelToVector c k (cornerOff i)).Z := by
  obtain ⟨d1, d2, d3⟩ := cornerOff_small i (List.mem_range.mpr hi)
  exact ⟨coord_is hb hm hk.1 d1 hb.tx hm.corner.1, coord_is hb hm hk.2.1 d2 hb.ty hm.corner.2.1,
    coord_is hb hm hk.2.2 d3 hb.tz hm.corner.2.2⟩

theorem half_is {x y : F64} {x' y' : Ieee} (hx : Good x x') (hy : Good y y') :
    Is (half64 x y) (halfIeee x' y') ∧ halfIeee x' y' = plain (half64 x y) := by
  have hm : IsP 268 (mul (lit (1 / 2)) (sub y x)) (mul (lit (1 / 2)) (sub y' x')) :=
    isP_half.mul (hy.1.sub 264 hx.1 (by norm_num) (by norm_num) (by norm_num)) (by norm_num)
  have h : Is (half64 x y) (halfIeee x' y') := (hx.1.add 268 hm (by norm_num) (by norm_num) (by norm_num)).1
  exact ⟨h, plain_of h (noNeg_add hx.1.1 hm.1 (.inl hx.2))⟩

theorem vertex_is (hb : IsModel b c) (hm : ModerateModel b) (vs : List Key) {k : Key} (hk : CellSmall k) {e : Nat} (he : e < 12)
    (hbit : (edgeTable.getD (idx (fun v => decide (v ∈ vs)) k) 0).testBit e = true) :
    IsVec (vertlist (cell b (lookupOf vs) k) (edgeTable.getD (idx (fun v => decide (v ∈ vs)) k) 0) e)
      (vertlist (cell c (lookupOf vs) k) (edgeTable.getD (idx (fun v => decide (v ∈ vs)) k) 0) e) ∧
    vertlist (cell c (lookupOf vs) k) (edgeTable.getD (idx (fun v => decide (v ∈ vs)) k) 0) e =
      plainVec (vertlist (cell b (lookupOf vs) k) (edgeTable.getD (idx (fun v => decide (v ∈ vs)) k) 0) e) := by
  rw [vertlist_raw b vs k he hbit, vertlist_ieee c vs k he hbit]
  obtain ⟨l1, l2, -⟩ := edge_adjacent e (List.mem_range.mpr he)
  obtain ⟨a1, a2, a3⟩ := corner_is hb hm hk l1
  obtain ⟨b1, b2, b3⟩ := corner_is hb hm hk l2
  refine ⟨⟨(half_is a1 b1).1, (half_is a2 b2).1, (half_is a3 b3).1⟩, ?_⟩
  unfold plainVec
  dsimp only
  rw [← (half_is a1 b1).2, ← (half_is a2 b2).2, ← (half_is a3 b3).2]

theorem polygonize_is (hb : IsModel b c) (hm : ModerateModel b) (vs : List Key) {k : Key} (hk : CellSmall k) :
    List.Forall₂ (fun t u => IsTri t u ∧ u = moveTri plainVec t) (polygonize (cell b (lookupOf vs) k))
      (polygonize (cell c (lookupOf vs) k)) := by
  unfold polygonize
  dsimp only
  rw [cubeIndex_cell isoLaws_f64, cubeIndex_cell isoLaws_ieee]
  have hr := List.mem_range.mpr (idx_lt (fun v => decide (v ∈ vs)) k)
  split
  · exact .nil
  · apply forall₂_map
    intro t ht
    obtain ⟨l1, l2, l3, m1, m2, m3⟩ := (triTable_edges _ hr).1 t ht
    have v1 := vertex_is hb hm vs hk l1 m1
    have v2 := vertex_is hb hm vs hk l2 m2
    have v3 := vertex_is hb hm vs hk l3 m3
    refine ⟨⟨v1.1, v2.1, v3.1⟩, ?_⟩
    unfold moveTri
    dsimp only
    rw [← v1.2, ← v2.2, ← v3.2]

/-- **C114.** For a model of moderate size MarchingCubes gives the same triangles in full float64. -/
theorem marching_ieee (hb : IsModel b c) (hm : ModerateModel b) {tris' : List (Tri (Vec Ieee))} (h : MarchingRun c tris') :
    ∃ tris, MarchingRun b tris ∧ SameTris tris tris' ∧ tris' = tris.map (moveTri plainVec) := by
  obtain ⟨wo, co, ord, hw, hc, hord, rfl⟩ := h
  rw [hb.white] at hw
  rw [model_color hb] at hc
  refine ⟨_, ⟨wo, co, ord, hw, hc, hord, rfl⟩, ?_⟩
  have hmem : ∀ k, k ∈ wo ++ co ↔ Present b k := present_iff b hw hc
  have hsm : ∀ k ∈ wo ++ co, |k.X| ≤ 2 ^ 50 ∧ |k.Y| ≤ 2 ^ 50 ∧ |k.Z| ≤ 2 ^ 50 := fun k hk => hm.voxels k ((hmem k).mp hk)
  exact same_split (forall₂_flatMap ord fun k hk => polygonize_is hb hm _ (cell_small hsm (hord.mem_iff.mp hk)))

/-- **C114.** So where half the step between the centres on both sides of the surface is a float64 (C84), the surface is closed in
    full float64, corners compared bit by bit. -/
theorem marching_closed_ieee (hb : IsModel b c) (hm : ModerateModel b)
    (hx : ∀ u v : Key, Present b u → ¬ Present b v → Adjacent u v → HalfStep (centre64 b u) (centre64 b v))
    {tris' : List (Tri (Vec Ieee))} (h : MarchingRun c tris') : Closed tris' := by
  obtain ⟨tris, h1, -, rfl⟩ := marching_ieee hb hm h
  exact closed_move _ (marching_closed_f64 h1 hm.voxels hx)

end Marching

namespace Manifold

theorem isP_dd (d : Int) : IsP 1 (ddCoord d : F64) (ddCoord d : Ieee) := by
  unfold ddCoord
  split
  · exact isP_zero
  · split
    · exact isP_half
    · exact isP_lit (n := 0) (by norm_num [abs_of_neg]) (by norm_num)

theorem halves_dd (d : Int) : ∃ n : Int, |n| ≤ 1 ∧ Halves (ddCoord d) n := by
  unfold ddCoord
  split
  · exact ⟨0, by norm_num, by unfold Halves; decide +kernel⟩
  · split
    · exact ⟨1, by norm_num, by unfold Halves; decide +kernel⟩
    · exact ⟨-1, by norm_num, by unfold Halves; decide +kernel⟩

theorem shifted_is (hb : IsModel b c) (hm : ModerateModel b) {k d : Int} (hk : |k| ≤ 2 ^ 51) {t : F64} {t' : Ieee}
    (ht : Is t t') (h2 : |t.val| ≤ 2 ^ 200) :
    IsP 264 (add (mul (add (add (ofInt k) (ofInt 1)) (ddCoord d)) (div (ofInt 1) b.VoxelsPerMM)) t)
      (add (mul (add (add (ofInt k) (ofInt 1)) (ddCoord d)) (div (ofInt 1) c.VoxelsPerMM)) t') ∧
    NoNeg (add (mul (add (add (ofInt k) (ofInt 1)) (ddCoord d)) (div (ofInt 1) c.VoxelsPerMM)) t') := by
  obtain ⟨n, hn, hd⟩ := halves_dd d
  obtain ⟨k1, k2⟩ := abs_le.mp hk
  obtain ⟨n1, n2⟩ := abs_le.mp hn
  have h0 := isP_index (i := k) (hk.trans (by norm_num))
  have h1 := h0.add 53 isP_one (by norm_num) (by norm_num) (by norm_num)
  refine place_is hb hm (IsP.mono (h1.add 55 (isP_dd d) (by norm_num) (by norm_num) (by norm_num)) (by norm_num))
    (noNeg_add h1.1 (isP_dd d).1 (.inl (noNeg_add h0.1 isP_one.1 (.inl (noNeg_ofInt k)))))
    (halves_add (halves_add (halves_ofInt (abs_le.mpr ⟨by omega, by omega⟩)) (halves_ofInt (by norm_num)) (abs_le.mpr ⟨by omega, by omega⟩))
      hd (abs_le.mpr ⟨by omega, by omega⟩)) ht h2

theorem unshifted_is (hb : IsModel b c) (hm : ModerateModel b) {k d : Int} (hk : |k| ≤ 2 ^ 51) {t : F64} {t' : Ieee}
    (ht : Is t t') (h2 : |t.val| ≤ 2 ^ 200) :
    IsP 264 (add (mul (add (ofInt k) (ddCoord d)) (div (ofInt 1) b.VoxelsPerMM)) t)
      (add (mul (add (ofInt k) (ddCoord d)) (div (ofInt 1) c.VoxelsPerMM)) t') ∧
    NoNeg (add (mul (add (ofInt k) (ddCoord d)) (div (ofInt 1) c.VoxelsPerMM)) t') := by
  obtain ⟨n, hn, hd⟩ := halves_dd d
  obtain ⟨k1, k2⟩ := abs_le.mp hk
  obtain ⟨n1, n2⟩ := abs_le.mp hn
  have h0 := isP_index (i := k) (hk.trans (by norm_num))
  refine place_is hb hm (IsP.mono (h0.add 53 (isP_dd d) (by norm_num) (by norm_num) (by norm_num)) (by norm_num))
    (noNeg_add h0.1 (isP_dd d).1 (.inl (noNeg_ofInt k)))
    (halves_add (halves_ofInt (abs_le.mpr ⟨by omega, by omega⟩)) hd (abs_le.mpr ⟨by omega, by omega⟩)) ht h2

theorem point_is (hb : IsModel b c) (hm : ModerateModel b) {k : Key} (hk : Marching.CellSmall k) (d : Key) :
    IsVec (voxelToVector b k d) (voxelToVector c k d) ∧ voxelToVector c k d = plainVec (voxelToVector b k d) := by
  have hx := shifted_is (d := d.X) hb hm hk.1 hb.tx hm.corner.1
  have hy := unshifted_is (d := d.Y) hb hm hk.2.1 hb.ty hm.corner.2.1
  have hz := shifted_is (d := d.Z) hb hm hk.2.2 hb.tz hm.corner.2.2
  refine ⟨⟨hx.1.1, hy.1.1, hz.1.1⟩, ?_⟩
  unfold plainVec voxelToVector
  dsimp only
  rw [← plain_of hx.1.1 hx.2, ← plain_of hy.1.1 hy.2, ← plain_of hz.1.1 hz.2]

/-- **C114.** So does ManifoldMesh. -/
theorem manifold_ieee (hb : IsModel b c) (hm : ModerateModel b) {tris' : List (Tri (Vec Ieee))} (h : ManifoldRun c tris') :
    ∃ tris, ManifoldRun b tris ∧ SameTris tris tris' ∧ tris' = tris.map (moveTri plainVec) := by
  obtain ⟨wo, co, ord, hw, hc, hord, rfl⟩ := h
  rw [hb.white] at hw
  rw [model_color hb] at hc
  refine ⟨_, ⟨wo, co, ord, hw, hc, hord, rfl⟩, ?_⟩
  obtain ⟨e1, -, m1⟩ := ord_eq b hw hc hord
  refine same_split (forall₂_flatMap ord fun e he => ?_)
  have hk : Marching.CellSmall e.1 := cell_small_of hm.voxels ((m1 e.1).mp (List.mem_map_of_mem he))
  refine forall₂_map _ fun t _ => ⟨⟨(point_is hb hm hk _).1, (point_is hb hm hk _).1, (point_is hb hm hk _).1⟩, ?_⟩
  unfold moveTri
  dsimp only
  rw [← (point_is hb hm hk _).2, ← (point_is hb hm hk _).2, ← (point_is hb hm hk _).2]

/-- **C114.** In full float64 ManifoldMesh gives the mesh of exact arithmetic with its points moved, each to one float64 point
    (bit for bit, wherever it occurs), a few units in the last place away. -/
theorem manifold_moved_ieee (hb : IsModel b c) (hm : ModerateModel b) (ho : Ordinary b) {tris' : List (Tri (Vec Ieee))}
    (h : ManifoldRun c tris') :
    ∃ (ex : List (Tri (Vec ℚ))) (move : Vec ℚ → Vec F64), ManifoldRun (exactModel b) ex ∧
      tris' = ex.map (moveTri fun p => plainVec (move p)) ∧ ∀ t ∈ ex, CloseTri (exactModel b) t (moveTri move t) := by
  obtain ⟨tris, h1, -, rfl⟩ := manifold_ieee hb hm h
  obtain ⟨ex, move, e1, rfl, e3⟩ := manifold_f64 ho hm.voxels h1
  exact ⟨ex, move, e1, by rw [List.map_map]; rfl, e3⟩

/-- **C114.** For well-composed models without twisted chains the exact mesh of which this is the image is a closed surface that
    encloses the volume of the voxels and lies on their skin. -/
theorem manifold_closed_ieee (hb : IsModel b c) (hm : ModerateModel b) (ho : Ordinary b) {tris' : List (Tri (Vec Ieee))}
    (h : ManifoldRun c tris') (hwc : WellComposed b) (ht : ∀ k, blockBits b k ∉ twistedChains)
    {vox : List Key} (hnd : vox.Nodup) (hvox : ∀ k, k ∈ vox ↔ Present b k) :
    ∃ (ex : List (Tri (Vec ℚ))) (move : Vec ℚ → Vec F64), ClosedAfterHalving ex ∧
      volume ex = vox.length * (1 / (exactModel b).VoxelsPerMM) ^ 3 ∧ (∀ t ∈ ex, OnSkin (exactModel b) t) ∧
      tris' = ex.map (moveTri fun p => plainVec (move p)) ∧ ∀ t ∈ ex, CloseTri (exactModel b) t (moveTri move t) := by
  obtain ⟨tris, h1, -, rfl⟩ := manifold_ieee hb hm h
  obtain ⟨ex, move, e1, e2, e3, rfl, e5⟩ := manifold_closed_f64 ho hm.voxels h1 hwc ht hnd hvox
  exact ⟨ex, move, e1, e2, e3, by rw [List.map_map]; rfl, e5⟩

/-! ## Examples -/

/-- `crackModel` in full float64. -/
def crackIeee : BinVOX Ieee := ⟨3, 3, 3, ofInt 0, ofInt 0, ofInt 0, ofInt 1, some [(⟨0, 0, 0⟩, ())], none⟩

theorem crackIeee_is : IsModel Marching.crackModel crackIeee := by
  have e0 : (of 0 : F64) = ofInt 0 := by decide +kernel
  have e1 : (of 1 : F64) = ofInt 1 := by decide +kernel
  have h0 : Is (of 0) (ofInt 0) := by rw [e0]; exact isP_zero.1
  have h1 : Is (of 1) (ofInt 1) := by rw [e1]; exact isP_one.1
  exact ⟨rfl, rfl, rfl, h0, h0, h0, h1, by decide +kernel, by decide +kernel⟩

theorem crackModel_moderate : ModerateModel Marching.crackModel := by
  have hv : Marching.crackModel.VoxelsPerMM.val = 3 := by decide +kernel
  have h0 : |(of 0 : F64).val| ≤ 2 ^ 200 := by decide +kernel
  refine ⟨?_, ?_, by decide +kernel, ⟨h0, h0, h0⟩, crackModel_ordinary.2.1⟩
  · rw [hv, div_le_iff₀ (by positivity)]
    have : (1 : ℚ) ≤ 2 ^ 200 := one_le_pow₀ (by norm_num)
    linarith
  · rw [hv]
    have : (2 : ℚ) ^ 2 ≤ 2 ^ 200 := pow_le_pow_right₀ (by norm_num) (by norm_num)
    linarith

/-- **C114, the defect.** The crack of C84 is there in full float64 too. -/
theorem marching_cracks_ieee {tris : List (Tri (Vec Ieee))} (h : Marching.MarchingRun crackIeee tris) : ¬ Closed tris := by
  have h0 : Marching.MarchingRun crackIeee ((Marching.gridCellsOf [⟨0, 0, 0⟩]).keys.flatMap fun k =>
      Marching.polygonize (Marching.cell crackIeee (Marching.lookupOf [⟨0, 0, 0⟩]) k)) :=
    ⟨[⟨0, 0, 0⟩], [], _, List.Perm.refl _, List.Perm.refl _, List.Perm.refl _, rfl⟩
  exact Marching.not_closed_of_perm (Marching.marching_runs_perm h h0) (by decide +kernel)

/-- The cube of eight voxels in full float64. -/
def cubeIeee : BinVOX Ieee := { crackIeee with
  WhiteVoxels := some [(⟨0, 0, 0⟩, ()), (⟨0, 0, 1⟩, ()), (⟨0, 1, 0⟩, ()), (⟨0, 1, 1⟩, ()), (⟨1, 0, 0⟩, ()), (⟨1, 0, 1⟩, ()),
    (⟨1, 1, 0⟩, ()), (⟨1, 1, 1⟩, ())] }

/-- `marching_closed_ieee` on it: closed. -/
example : ∃ tris, Marching.MarchingRun cubeIeee tris ∧ Closed tris := by
  obtain ⟨tris, h⟩ := Marching.marching_run_exists cubeIeee
  have hi : IsModel Marching.cubeModel cubeIeee :=
    ⟨crackIeee_is.nx, crackIeee_is.ny, crackIeee_is.nz, crackIeee_is.tx, crackIeee_is.ty, crackIeee_is.tz, crackIeee_is.scale,
      by decide +kernel, by decide +kernel⟩
  have hm : ModerateModel Marching.cubeModel :=
    ⟨crackModel_moderate.lo, crackModel_moderate.hi, crackModel_moderate.dim, crackModel_moderate.corner, Marching.cubeModel_small⟩
  exact ⟨tris, h, Marching.marching_closed_ieee hi hm Marching.cubeModel_half h⟩

/-- The voxel, three voxels per millimetre, in full float64: the meshes of MarchingCubes and of ManifoldMesh. -/
example : ∃ tris tris', Marching.MarchingRun Marching.crackModel tris ∧ Marching.MarchingRun crackIeee tris' ∧ SameTris tris tris' := by
  obtain ⟨tris', h⟩ := Marching.marching_run_exists crackIeee
  obtain ⟨tris, h1, h2, -⟩ := Marching.marching_ieee crackIeee_is crackModel_moderate h
  exact ⟨tris, tris', h1, h, h2⟩

example : ∃ tris', ManifoldRun crackIeee tris' ∧ ∃ (ex : List (Tri (Vec ℚ))) (move : Vec ℚ → Vec F64), ClosedAfterHalving ex ∧
    volume ex = 1 * (1 / 3) ^ 3 ∧ tris' = ex.map (moveTri fun p => plainVec (move p)) := by
  obtain ⟨tris', h⟩ := manifold_run_exists crackIeee
  obtain ⟨ex, move, h1, h2, -, h3, -⟩ := manifold_closed_ieee crackIeee_is crackModel_moderate crackModel_ordinary.1 h crackModel_wc
    crackModel_untwisted (vox := [⟨0, 0, 0⟩]) (by decide) crackModel_present
  have hv : (exactModel Marching.crackModel).VoxelsPerMM = 3 := by decide +kernel
  rw [hv] at h2
  exact ⟨tris', h, ex, move, h1, by simpa using h2, h3⟩

end Manifold
end StlDice
