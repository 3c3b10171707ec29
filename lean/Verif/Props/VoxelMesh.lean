import Mathlib.Algebra.BigOperators.Group.Finset.Basic
import Mathlib.Data.Finset.Prod
import Verif.Props.ToMesh

/-! # A mesher of unit cubes exists: what C73 and C78 assume of the library can be met -/

namespace StlDice
open Spec BinVOX
namespace Cmd

/-- Move by `k` voxels. -/
def moveBy (k : Key) : Vec ℚ → Vec ℚ := affine 1 ⟨k.X, k.Y, k.Z⟩

/-- The triangles of the unit cube around the origin on the side of `e`. -/
def sideTris (e : Key) : List (Tri (Vec ℚ)) := cubeTris.filter fun t => stepOf t = e

/-- The triangles of the side of voxel `k` towards `e`. -/
def faceOf (k e : Key) : List (Tri (Vec ℚ)) := (sideTris e).map (moveTri (moveBy k))

/-- The sides of the voxels towards places without voxels, as two triangles each. -/
def faceMesh (ks : List Key) : List (Tri (Vec ℚ)) :=
  ks.dedup.flatMap fun k => (unitSteps.filter fun e => step k e ∉ ks).flatMap (faceOf k)

/-- The triangle seen from the other side. -/
def back (t : Tri (Vec ℚ)) : Tri (Vec ℚ) := ⟨t.V1, t.V3, t.V2⟩

def opposite (e : Key) : Key := ⟨-e.X, -e.Y, -e.Z⟩

theorem sideTris_opposite : ∀ e ∈ unitSteps, ((sideTris (opposite e)).map (moveTri (moveBy e))).Perm ((sideTris e).map back) := by
  decide +kernel

theorem moveBy_step (k e : Key) (p : Vec ℚ) : moveBy (step k e) p = moveBy k (moveBy e p) := by
  unfold moveBy affine step Key.shift
  dsimp only
  push_cast
  congr 1 <;> ring

theorem faceOf_opposite (k : Key) {e : Key} (he : e ∈ unitSteps) :
    (faceOf (step k e) (opposite e)).Perm ((faceOf k e).map back) := by
  have h := (sideTris_opposite e he).map (moveTri (moveBy k))
  unfold faceOf
  rw [List.map_map] at h ⊢
  rw [List.map_map] at h
  have e1 : moveTri (moveBy (step k e)) = moveTri (moveBy k) ∘ moveTri (moveBy e) := by
    funext t
    unfold moveTri
    simp only [Function.comp_apply, moveBy_step]
  rw [e1]
  exact h

/-- Sides between two voxels cancel. -/
theorem sides_cancel {A : Type} [AddCommGroup A] (g : Key → Key → A)
    (hg : ∀ k, ∀ e ∈ unitSteps, g k e + g (step k e) (opposite e) = 0) (S : List Key) (hS : S.Nodup) :
    (S.map fun k => ((unitSteps.filter fun e => step k e ∉ S).map (g k)).sum).sum = (S.map fun k => (unitSteps.map (g k)).sum).sum := by
  have hU : unitSteps.Nodup := by decide
  have e1 : (S.map fun k => ((unitSteps.filter fun e => step k e ∉ S).map (g k)).sum).sum =
      ∑ k ∈ S.toFinset, ∑ e ∈ unitSteps.toFinset, if step k e ∉ S then g k e else 0 := by
    rw [← List.sum_toFinset _ hS]
    refine Finset.sum_congr rfl fun k _ => ?_
    rw [← List.sum_toFinset _ (hU.filter _), List.toFinset_filter, Finset.sum_filter]
    simp
  have e2 : (S.map fun k => (unitSteps.map (g k)).sum).sum = ∑ k ∈ S.toFinset, ∑ e ∈ unitSteps.toFinset, g k e := by
    rw [← List.sum_toFinset _ hS]
    refine Finset.sum_congr rfl fun k _ => ?_
    rw [List.sum_toFinset _ hU]
  have e3 : ∑ k ∈ S.toFinset, ∑ e ∈ unitSteps.toFinset, (if step k e ∈ S then g k e else 0) = 0 := by
    rw [← Finset.sum_product', ← Finset.sum_filter]
    refine Finset.sum_involution (fun x _ => (step x.1 x.2, opposite x.2)) ?_ ?_ ?_ ?_
    · rintro ⟨k, e⟩ hx
      rw [Finset.mem_filter, Finset.mem_product, List.mem_toFinset, List.mem_toFinset] at hx
      exact hg k e hx.1.2
    · rintro ⟨k, e⟩ hx _ he
      rw [Finset.mem_filter, Finset.mem_product, List.mem_toFinset, List.mem_toFinset] at hx
      have h0 : ∀ e ∈ unitSteps, opposite e ≠ e := by decide
      exact h0 e hx.1.2 (congrArg Prod.snd he)
    · rintro ⟨k, e⟩ hx
      rw [Finset.mem_filter, Finset.mem_product, List.mem_toFinset, List.mem_toFinset] at hx ⊢
      have h0 : ∀ e ∈ unitSteps, opposite e ∈ unitSteps := by decide
      refine ⟨⟨hx.2, h0 e hx.1.2⟩, ?_⟩
      have : step (step k e) (opposite e) = k := by
        obtain ⟨X, Y, Z⟩ := k
        simp [step, opposite, Key.shift]
      dsimp only
      rw [this]
      exact hx.1.1
    · rintro ⟨k, e⟩ _
      obtain ⟨X, Y, Z⟩ := k
      obtain ⟨a, b, c⟩ := e
      simp [step, opposite, Key.shift]
  have e4 : ∑ k ∈ S.toFinset, ∑ e ∈ unitSteps.toFinset, g k e =
      (∑ k ∈ S.toFinset, ∑ e ∈ unitSteps.toFinset, if step k e ∉ S then g k e else 0) +
        ∑ k ∈ S.toFinset, ∑ e ∈ unitSteps.toFinset, (if step k e ∈ S then g k e else 0) := by
    rw [← Finset.sum_add_distrib]
    refine Finset.sum_congr rfl fun k _ => ?_
    rw [← Finset.sum_add_distrib]
    refine Finset.sum_congr rfl fun e _ => ?_
    by_cases h : step k e ∈ S <;> simp [h]
  rw [e1, e2, e4, e3, add_zero]

/-- How often the edge from `u` to `v` is passed, less how often it is passed back. -/
def winding (u v : Vec ℚ) (ts : List (Tri (Vec ℚ))) : ℤ :=
  ((ts.flatMap triEdges).count (u, v) : ℤ) - ((ts.flatMap triEdges).count (v, u) : ℤ)

theorem winding_append (u v : Vec ℚ) (a b : List (Tri (Vec ℚ))) : winding u v (a ++ b) = winding u v a + winding u v b := by
  unfold winding
  rw [List.flatMap_append, List.count_append, List.count_append]
  push_cast
  ring

theorem winding_flatMap {α : Type} (u v : Vec ℚ) (f : α → List (Tri (Vec ℚ))) (l : List α) :
    winding u v (l.flatMap f) = (l.map fun a => winding u v (f a)).sum := by
  induction l with
  | nil => simp [winding]
  | cons a l ih => rw [List.flatMap_cons, winding_append, ih, List.map_cons, List.sum_cons]

theorem winding_perm (u v : Vec ℚ) {a b : List (Tri (Vec ℚ))} (h : a.Perm b) : winding u v a = winding u v b := by
  unfold winding
  rw [(h.flatMap_right triEdges).count_eq, (h.flatMap_right triEdges).count_eq]

theorem winding_back (u v : Vec ℚ) (ts : List (Tri (Vec ℚ))) : winding u v (ts.map back) = - winding u v ts := by
  induction ts with
  | nil => simp [winding]
  | cons t ts ih =>
    rw [List.map_cons, ← List.singleton_append, winding_append, ih, ← List.singleton_append (l := ts), winding_append]
    have : winding u v [back t] = - winding u v [t] := by
      unfold winding back triEdges
      simp only [List.flatMap_cons, List.flatMap_nil, List.append_nil, List.count_cons, List.count_nil, beq_iff_eq, Prod.mk.injEq]
      have c : ∀ a b c d : Vec ℚ, (if a = b ∧ c = d then 1 else 0) = (if c = d ∧ a = b then 1 else (0 : ℕ)) := by
        intro a b c d
        simp only [and_comm]
      rw [c t.V1 u t.V3 v, c t.V3 u t.V2 v, c t.V2 u t.V1 v, c t.V1 v t.V3 u, c t.V3 v t.V2 u, c t.V2 v t.V1 u]
      push_cast
      ring
    rw [this]
    ring

theorem closed_iff_winding (ts : List (Tri (Vec ℚ))) : Closed ts ↔ ∀ u v, winding u v ts = 0 := by
  unfold Closed winding
  refine forall_congr' fun u => forall_congr' fun v => ?_
  omega

theorem volume_append (a b : List (Tri (Vec ℚ))) : volume (a ++ b) = volume a + volume b := by
  unfold volume
  rw [List.map_append, List.sum_append]
  ring

theorem volume_flatMap {α : Type} (f : α → List (Tri (Vec ℚ))) (l : List α) :
    volume (l.flatMap f) = (l.map fun a => volume (f a)).sum := by
  induction l with
  | nil => simp [volume]
  | cons a l ih => rw [List.flatMap_cons, volume_append, ih, List.map_cons, List.sum_cons]

theorem volume_perm {a b : List (Tri (Vec ℚ))} (h : a.Perm b) : volume a = volume b := by
  unfold volume
  rw [(h.map _).sum_eq]

theorem volume_back (ts : List (Tri (Vec ℚ))) : volume (ts.map back) = - volume ts := by
  induction ts with
  | nil => simp [volume]
  | cons t ts ih =>
    rw [List.map_cons, ← List.singleton_append, volume_append, ih, ← List.singleton_append (l := ts), volume_append]
    unfold volume back vdot vcross
    simp only [List.map_cons, List.map_nil, List.sum_cons, List.sum_nil]
    ring

theorem cube_closed (k : Key) : Closed (unitSteps.flatMap (faceOf k)) := by
  have h : Closed (unitSteps.flatMap sideTris) := by
    rw [closed_iff_perm]
    decide +kernel
  have := closed_move (moveBy k) h
  rw [List.map_flatMap] at this
  exact this

theorem cube_volume (k : Key) : volume (unitSteps.flatMap (faceOf k)) = 1 := by
  have h : Closed (unitSteps.flatMap sideTris) := by
    rw [closed_iff_perm]
    decide +kernel
  have hv : volume (unitSteps.flatMap sideTris) = 1 := by decide +kernel
  have := volume_affine (closedAfterCuts_of_closed h) 1 ⟨k.X, k.Y, k.Z⟩
  rw [List.map_flatMap, hv] at this
  rw [show (unitSteps.flatMap (faceOf k)) = unitSteps.flatMap (fun a => (sideTris a).map (moveTri (affine 1 ⟨k.X, k.Y, k.Z⟩))) from rfl,
    this]
  norm_num

theorem faceMesh_dedup (ks : List Key) :
    faceMesh ks = ks.dedup.flatMap fun k => (unitSteps.filter fun e => step k e ∉ ks.dedup).flatMap (faceOf k) := by
  unfold faceMesh
  simp only [List.mem_dedup]

/-- `faceMesh` is closed. -/
theorem faceMesh_closed (ks : List Key) : Closed (faceMesh ks) := by
  rw [closed_iff_winding, faceMesh_dedup]
  intro u v
  rw [winding_flatMap]
  simp only [winding_flatMap]
  rw [sides_cancel (fun k e => winding u v (faceOf k e)) ?_ _ ks.nodup_dedup]
  · simp only [← winding_flatMap, (closed_iff_winding _).mp (cube_closed _) u v]
    simp
  · intro k e he
    rw [winding_perm u v (faceOf_opposite k he), winding_back]
    ring

/-- `faceMesh` meshes unit cubes as `IsVoxelMesh` demands, for all lists of voxels. -/
theorem faceMesh_isVoxelMesh (ks : List Key) : IsVoxelMesh ks (faceMesh ks) := by
  refine ⟨closedAfterCuts_of_closed (faceMesh_closed ks), ?_, ?_⟩
  · intro t ht
    unfold faceMesh at ht
    obtain ⟨k, hk, ht⟩ := List.mem_flatMap.mp ht
    obtain ⟨e, he, ht⟩ := List.mem_flatMap.mp ht
    obtain ⟨s, hs, rfl⟩ := List.mem_map.mp ht
    unfold sideTris at hs
    rw [List.mem_filter, decide_eq_true_eq] at hs he
    obtain ⟨hs, rfl⟩ := hs
    obtain ⟨h1, h2, h3, h4⟩ := cubeTris_skin s hs
    have hcen : centroid (moveTri (moveBy k) s) = moveBy k (centroid s) := by
      unfold centroid moveTri moveBy affine
      dsimp only
      congr 1 <;> ring
    have hcube : ∀ (u : Key) (p : Vec ℚ), InCube (unitModel [⟨0, 0, 0⟩]) u p → InCube (unitModel ks) (step k u) (moveBy k p) := by
      have hv : ∀ l, (unitModel l).VoxelsPerMM = 1 := by
        intro l
        unfold unitModel VoxelsPerMM vpmmOf
        simp only [GoFloat.le, GoFloat.ofInt]
        norm_num
      intro u p hu
      unfold InCube at hu ⊢
      rw [hv] at hu ⊢
      unfold step Key.shift moveBy affine
      unfold unitModel at hu ⊢
      dsimp only at hu ⊢
      push_cast
      refine ⟨?_, ?_, ?_, ?_, ?_, ?_⟩ <;> linarith [hu.1, hu.2.1, hu.2.2.1, hu.2.2.2.1, hu.2.2.2.2.1, hu.2.2.2.2.2]
    refine ⟨k, stepOf s, h1, (present_unitModel ks _).mpr (List.mem_dedup.mp hk), ?_, ?_, ?_, 1, one_pos, ?_⟩
    · rw [present_unitModel]
      exact he.2
    · rw [hcen]
      have := hcube ⟨0, 0, 0⟩ _ h2
      have e0 : step k ⟨0, 0, 0⟩ = k := by
        obtain ⟨X, Y, Z⟩ := k
        simp [step, Key.shift]
      rwa [e0] at this
    · rw [hcen]
      have := hcube _ _ h3
      have e0 : step ⟨0, 0, 0⟩ (stepOf s) = stepOf s := by
        generalize stepOf s = q
        obtain ⟨X, Y, Z⟩ := q
        simp [step, Key.shift]
      rwa [e0] at this
    · rw [← h4]
      unfold normal vcross vsub moveTri moveBy affine
      dsimp only
      congr 1 <;> ring
  · rw [faceMesh_dedup, volume_flatMap]
    simp only [volume_flatMap]
    rw [sides_cancel (fun k e => volume (faceOf k e)) ?_ _ ks.nodup_dedup]
    · simp only [← volume_flatMap, cube_volume]
      simp
    · intro k e he
      rw [volume_perm (faceOf_opposite k he), volume_back]
      ring

end Cmd
end StlDice
