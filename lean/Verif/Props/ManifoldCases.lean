import Verif.Props.ManifoldSolid

/-! # ManifoldMesh: concrete models, holes and T-junctions; TriangleLess (C50, C52) -/

namespace StlDice
namespace Manifold
open Spec GoFloat BinVOX
open Marching (corner cornerOff)

/-! ## Well-composedness can be checked block by block -/

theorem common_block {u v : Key} (h1 : (u.X - v.X).natAbs ≤ 1) (h2 : (u.Y - v.Y).natAbs ≤ 1)
    (h3 : (u.Z - v.Z).natAbs ≤ 1) :
    ∃ k : Key, (∃ i < 8, u = corner k i) ∧ (∃ j < 8, v = corner k j) := by
  refine ⟨⟨min u.X v.X, max u.Y v.Y, min u.Z v.Z⟩, corner_of_range ?_ ?_ ?_ ?_ ?_ ?_,
    corner_of_range ?_ ?_ ?_ ?_ ?_ ?_⟩ <;> dsimp only <;> omega

theorem wellComposed_of_blocks {F : Type} [GoFloat F] {b : BinVOX F}
    (h : ∀ k, wcBlock (blockBits b k) = true) : WellComposed b := by
  intro u v h1 h2 h3 hd hp
  obtain ⟨k, ⟨i, hi, rfl⟩, ⟨j, hj, rfl⟩⟩ := common_block h1 h2 h3
  have hk := h k
  unfold wcBlock at hk
  rw [List.all_eq_true] at hk
  have hk := hk i (List.mem_range.mpr hi)
  rw [List.all_eq_true] at hk
  have hk := hk j (List.mem_range.mpr hj)
  rw [dist_corner] at hd
  rw [blockBits_bit b k i hi, blockBits_bit b k j hj] at hk
  have he : pres b (corner k i) = pres b (corner k j) := by
    unfold Present at hp
    unfold pres
    exact Bool.eq_iff_iff.mpr hp
  rw [he] at hk
  simp only [beq_self_eq_true, decide_eq_true hd, Bool.and_self, Bool.not_true, Bool.false_or,
    List.any_eq_true, Bool.and_eq_true, decide_eq_true_eq, beq_iff_eq] at hk
  obtain ⟨l, hl, ⟨⟨n1, n2⟩, n3⟩, n4⟩ := hk
  have hl8 := List.mem_range.mp hl
  rw [blockBits_bit b k l hl8] at n4
  refine ⟨corner k l, ?_, ?_, ?_, ?_⟩
  · intro e
    have : cdist l i = 0 := by rw [← dist_corner k, e, dist_corner]; unfold cdist dist; simp
    revert n1 this
    have hh : ∀ l ∈ List.range 8, ∀ i ∈ List.range 8, l ≠ i → ¬ cdist l i = 0 := by decide
    exact hh l hl i (List.mem_range.mpr hi)
  · intro e
    have : cdist l j = 0 := by rw [← dist_corner k, e, dist_corner]; unfold cdist dist; simp
    revert n2 this
    have hh : ∀ l ∈ List.range 8, ∀ i ∈ List.range 8, l ≠ i → ¬ cdist l i = 0 := by decide
    exact hh l hl j (List.mem_range.mpr hj)
  · rw [dist_corner, dist_corner, dist_corner]
    exact n3
  · unfold Present
    unfold pres at n4 he
    rw [n4, ← he]

/-- A property of blocks holds everywhere if it holds at the cells around the voxels and for the
    empty block. -/
theorem blocks_of_list {F : Type} [GoFloat F] (b : BinVOX F) (vox : List Key)
    (hv : ∀ v, Present b v → v ∈ vox) (P : Nat → Prop) (h0 : P 0)
    (h : ∀ v ∈ vox, ∀ c ∈ cellBits v, P (blockBits b c.1)) : ∀ k, P (blockBits b k) := by
  intro k
  by_cases hk : ∃ i < 8, Present b (corner k i)
  · obtain ⟨i, hi, hp⟩ := hk
    exact h _ (hv _ hp) (k, 2 ^ i) ((mem_cellBits _ _ _).mpr ⟨i, hi, rfl, rfl⟩)
  · have : blockBits b k = 0 := by
      apply Nat.eq_of_testBit_eq
      intro i
      rw [Nat.zero_testBit]
      by_cases hi : i < 8
      · rw [blockBits_bit b k i hi]
        unfold pres
        cases hx : (b.Get (corner k i).X (corner k i).Y (corner k i).Z).isSome
        · rfl
        · exact absurd ⟨i, hi, hx⟩ hk
      · apply Nat.testBit_lt_two_pow
        exact lt_of_lt_of_le (blockBits_lt b k)
          (Nat.pow_le_pow_right (n := 2) (by decide) (by omega : 8 ≤ i))
    rw [this]
    exact h0

/-- A model of 4×4×4 voxels of 1 mm at the origin with the given white voxels. -/
def modelOf (vs : List Key) : BinVOX ℚ where
  NX := 4
  NY := 4
  NZ := 4
  TX := 0
  TY := 0
  TZ := 0
  Scale := 4
  WhiteVoxels := some (vs.map fun v => (v, ()))
  ColorVoxels := none

theorem modelOf_present (vs : List Key) (v : Key) : Present (modelOf vs) v ↔ v ∈ vs := by
  rw [← Marching.present_iff (modelOf vs) (List.Perm.refl _) (List.Perm.refl _)]
  unfold BinVOX.white BinVOX.color modelOf mapOf GoMap.keys
  simp

/-- The mesh of a model when the maps are visited in the stored order. -/
def canonical (b : BinVOX ℚ) : List (Tri (Vec ℚ)) :=
  (gridOf (b.white.keys ++ b.color.keys)).flatMap (cellTris b)

theorem canonical_run (b : BinVOX ℚ) : ManifoldRun b (canonical b) :=
  ⟨_, _, _, List.Perm.refl _, List.Perm.refl _, List.Perm.refl _, rfl⟩

/-! ## A non-trivial well-composed model -/

/-- Five voxels: an L in one layer and a stack of two on top of one of its ends. -/
def goodVox : List Key := [⟨0, 0, 0⟩, ⟨1, 0, 0⟩, ⟨2, 0, 0⟩, ⟨2, 1, 0⟩, ⟨0, 0, 1⟩]

theorem goodVox_wc : WellComposed (modelOf goodVox) :=
  wellComposed_of_blocks (blocks_of_list _ goodVox (fun v h => (modelOf_present _ v).mp h)
    (fun n => wcBlock n = true) (by decide +kernel) (by decide +kernel))

theorem goodVox_untwisted : ∀ k, blockBits (modelOf goodVox) k ∉ twistedChains :=
  blocks_of_list _ goodVox (fun v h => (modelOf_present _ v).mp h)
    (fun n => n ∉ twistedChains) (by decide) (by decide +kernel)

/-- The hypotheses of C50, C70 and C71 are met by a model of five voxels. -/
example : WellComposed (modelOf goodVox) ∧ (∀ k, blockBits (modelOf goodVox) k ∉ twistedChains) ∧
    0 < (modelOf goodVox).VoxelsPerMM ∧ goodVox.Nodup ∧ (∀ k, k ∈ goodVox ↔ Present (modelOf goodVox) k) ∧
    ∃ tris, ManifoldRun (modelOf goodVox) tris ∧ tris ≠ [] :=
  ⟨goodVox_wc, goodVox_untwisted, by decide +kernel, by decide, fun k => (modelOf_present _ k).symm,
    _, canonical_run _, by decide +kernel⟩

/-! ## Long edges: closed only after halving -/

/-- Three voxels in an L. -/
def ellVox : List Key := [⟨0, 0, 0⟩, ⟨1, 0, 0⟩, ⟨1, 1, 0⟩]

/-- **C50, disagreement.** Already the mesh of three voxels in an L is not a closed surface in the
    strict sense: it has an edge that is matched only by two half edges running back. -/
theorem manifold_t_junction : WellComposed (modelOf ellVox) ∧
    (∀ k, blockBits (modelOf ellVox) k ∉ twistedChains) ∧
    ∀ tris, ManifoldRun (modelOf ellVox) tris → ¬ Closed tris := by
  refine ⟨wellComposed_of_blocks (blocks_of_list _ ellVox (fun v h => (modelOf_present _ v).mp h)
      (fun n => wcBlock n = true) (by decide +kernel) (by decide +kernel)),
    blocks_of_list _ ellVox (fun v h => (modelOf_present _ v).mp h)
      (fun n => n ∉ twistedChains) (by decide) (by decide +kernel), ?_⟩
  intro tris h hcl
  have hp := manifold_runs_perm h (canonical_run _)
  have hc : Closed (canonical (modelOf ellVox)) := by
    intro u v
    have hq := hp.flatMap_right triEdges
    rw [← hq.count_eq, ← hq.count_eq]
    exact hcl u v
  have : ∃ e ∈ (canonical (modelOf ellVox)).flatMap triEdges,
      ((canonical (modelOf ellVox)).flatMap triEdges).count (e.1, e.2) ≠
      ((canonical (modelOf ellVox)).flatMap triEdges).count (e.2, e.1) := by decide +kernel
  obtain ⟨e, -, he⟩ := this
  exact he (hc e.1 e.2)

/-! ## Holes -/

/-- `Y` component of the vector product of the ends of an edge. -/
def turnY (e : Vec ℚ × Vec ℚ) : ℚ := e.1.Z * e.2.X - e.1.X * e.2.Z

theorem sum_zero_of_counts (L : List (Vec ℚ × Vec ℚ)) (h : ∀ u v, L.count (u, v) = L.count (v, u)) :
    (L.map turnY).sum = 0 := by
  have hp : L.Perm (L.map Prod.swap) := by
    rw [List.perm_iff_count]
    rintro ⟨u, v⟩
    rw [h u v]
    exact (List.count_map_of_injective L Prod.swap Prod.swap_injective (v, u)).symm
  have h1 := (hp.map turnY).sum_eq
  rw [List.map_map] at h1
  have h2 : (L.map (turnY ∘ Prod.swap)).sum = -(L.map turnY).sum := by
    clear h hp h1
    induction L with
    | nil => simp
    | cons e L ih =>
      rw [List.map_cons, List.sum_cons, ih, List.map_cons, List.sum_cons]
      unfold turnY
      simp only [Function.comp, Prod.fst_swap, Prod.snd_swap]
      ring
  rw [h2] at h1
  linarith

/-- The normals of a closed surface add up to zero. -/
theorem normals_of_closed {ts : List (Tri (Vec ℚ))} (h : ClosedAfterHalving ts) :
    (ts.map fun t => (normal t).Y).sum = 0 := by
  obtain ⟨cut, hl, hc⟩ := h
  have h0 := sum_zero_of_counts _ hc
  have hsum : ∀ (es : List (Vec ℚ × Vec ℚ)) (cut : List Bool), cut.length = es.length →
      (((es.zip cut).flatMap fun ec => if ec.2 then halves ec.1 else [ec.1]).map turnY).sum =
        (es.map turnY).sum := by
    intro es
    induction es with
    | nil => intro cut _; simp
    | cons e es ih =>
      intro cut hl
      match cut, hl with
      | c :: cut, hl =>
        rw [List.zip_cons_cons, List.flatMap_cons, List.map_append, List.sum_append,
          ih cut (by simpa using hl), List.map_cons, List.sum_cons]
        congr 1
        dsimp only
        split
        · unfold halves turnY midpoint
          simp only [List.map_cons, List.map_nil, List.sum_cons, List.sum_nil]
          ring
        · simp
  rw [hsum _ _ hl] at h0
  rw [← h0]
  clear h0 hc hl hsum
  induction ts with
  | nil => rfl
  | cons t ts ih =>
    rw [List.map_cons, List.sum_cons, ih, List.flatMap_cons, List.map_append, List.sum_append]
    congr 1
    unfold normal triEdges turnY vcross vsub
    simp only [List.map_cons, List.map_nil, List.sum_cons, List.sum_nil]
    ring

/-- Four voxels in a twisted chain. -/
def twistVox : List Key := [⟨0, 1, 0⟩, ⟨1, 1, 0⟩, ⟨1, 0, 0⟩, ⟨0, 1, 1⟩]

/-- **C50, disagreement.** A well-composed model of four voxels in a twisted chain, for which the mesh
    has a hole whatever the order of the maps: one cell is not handled. -/
theorem manifold_hole : WellComposed (modelOf twistVox) ∧
    (∃ k, blockBits (modelOf twistVox) k = 0x17 ∧ gridTris? 0x17 = none) ∧
    ∀ tris, ManifoldRun (modelOf twistVox) tris → ¬ ClosedAfterHalving tris := by
  refine ⟨wellComposed_of_blocks (blocks_of_list _ twistVox (fun v h => (modelOf_present _ v).mp h)
      (fun n => wcBlock n = true) (by decide +kernel) (by decide +kernel)),
    ⟨⟨0, 1, 0⟩, by decide +kernel, by decide +kernel⟩, ?_⟩
  intro tris h hcl
  have h0 := normals_of_closed hcl
  rw [((manifold_runs_perm h (canonical_run _)).map fun t => (normal t).Y).sum_eq] at h0
  revert h0
  decide +kernel

/-! ## The theorems of C50, C70 and C71 on five voxels -/

example := manifold_closed_wellcomposed (canonical_run (modelOf goodVox)) goodVox_wc goodVox_untwisted
example := manifold_volume (canonical_run (modelOf goodVox)) goodVox_wc goodVox_untwisted (vox := goodVox) (by decide) (fun k => (modelOf_present _ k).symm)
example := manifold_area (canonical_run (modelOf goodVox)) goodVox_wc goodVox_untwisted (vox := goodVox) (by decide) (fun k => (modelOf_present _ k).symm)
example := manifold_skin (b := modelOf goodVox) (by decide +kernel) (canonical_run (modelOf goodVox)) goodVox_wc goodVox_untwisted
example : ∃ t, t ∈ canonical (modelOf goodVox) := by
  obtain ⟨t, ht⟩ := List.exists_mem_of_ne_nil _ (show canonical (modelOf goodVox) ≠ [] by decide +kernel)
  exact ⟨t, ht⟩

/-- `grid_exact` on the five voxels: at (0,0,0) the voxel itself and its neighbours in x and z are there, bits 0, 1 and 4. -/
example : (gridOf ((modelOf goodVox).white.keys ++ (modelOf goodVox).color.keys)).get ⟨0, 0, 0⟩ = some 19 := by
  refine (grid_exact (modelOf goodVox) (List.Perm.refl _) (List.Perm.refl _) ⟨0, 0, 0⟩ 19).mpr ⟨⟨1, by decide, ?_⟩, by decide +kernel, ?_⟩
  · exact (modelOf_present _ _).mpr (by decide +kernel)
  · intro i hi
    rw [modelOf_present]
    revert i
    decide +kernel

/-- `manifold_closed` on the five voxels: each block of this model is one of the configurations that fit their neighbours. -/
example : ∃ tris, ManifoldRun (modelOf goodVox) tris ∧ tris.length = 168 ∧ ClosedAfterHalving tris :=
  ⟨_, canonical_run _, by decide +kernel, manifold_closed (canonical_run _)
    (blocks_of_list _ goodVox (fun v h => (modelOf_present _ v).mp h) (fun n => n ∈ goodConfigs) (by decide) (by decide +kernel))⟩

end Manifold
end StlDice
