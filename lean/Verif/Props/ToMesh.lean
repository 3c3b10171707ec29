import Verif.Props.Commands
import Verif.Spec.VoxelMesh

/-! # C73: ToMesh puts every voxel's cube in its place -/

namespace StlDice
open Spec BinVOX

/-! ## The volume enclosed by a closed surface under scaling and translation -/

theorem sum_swap_neg {P : Type} (E : List (P × P)) (g : P × P → ℚ) (hg : ∀ u v, g (u, v) = - g (v, u))
    (hp : E.Perm (E.map Prod.swap)) : (E.map g).sum = 0 := by
  have h1 : (E.map g).sum = ((E.map Prod.swap).map g).sum := (hp.map g).sum_eq
  rw [List.map_map] at h1
  have h2 : (E.map (g ∘ Prod.swap)).sum = - (E.map g).sum := by
    clear h1 hp
    induction E with
    | nil => simp
    | cons e E ih =>
      obtain ⟨u, v⟩ := e
      rw [List.map_cons, List.sum_cons, ih, List.map_cons, List.sum_cons, Function.comp_apply, Prod.swap_prod_mk, hg v u]
      ring
  rw [h2] at h1
  linarith

/-- As many pieces in one direction as in the other. -/
theorem balanced_iff_perm {P : Type} [DecidableEq P] (E : List (P × P)) :
    (∀ u v, E.count (u, v) = E.count (v, u)) ↔ E.Perm (E.map Prod.swap) := by
  have hsw : ∀ u v : P, (E.map Prod.swap).count (u, v) = E.count (v, u) := by
    intro u v
    exact List.count_map_of_injective E Prod.swap Prod.swap_injective (v, u)
  constructor
  · intro h
    rw [List.perm_iff_count]
    rintro ⟨u, v⟩
    rw [hsw, h]
  · intro h u v
    rw [h.count_eq, hsw]

/-- A surface without corners inside edges needs no cuts. -/
theorem closedAfterCuts_of_closed {ts : List (Tri (Vec ℚ))} (h : Closed ts) : ClosedAfterCuts ts := by
  refine ⟨List.replicate (ts.flatMap triEdges).length [], by simp, ?_, ?_⟩
  · intro x hx
    have := List.eq_of_mem_replicate (List.of_mem_zip hx).2
    rw [this]
    trivial
  · have e : ∀ E : List (Vec ℚ × Vec ℚ), ((E.zip (List.replicate E.length [])).flatMap fun x => pieces x.1.2 x.1.1 x.2) = E := by
      intro E
      induction E with
      | nil => rfl
      | cons a E ih =>
        rw [List.length_cons, List.replicate_succ, List.zip_cons_cons, List.flatMap_cons, ih]
        rfl
    rw [e]
    exact h

/-- Scale by `s`, then translate by `t`. -/
def Spec.affine (s : ℚ) (t p : Vec ℚ) : Vec ℚ := ⟨s * p.X + t.X, s * p.Y + t.Y, s * p.Z + t.Z⟩

theorem along_affine (s : ℚ) (t b : Vec ℚ) : ∀ (ps : List (Vec ℚ)) (a : Vec ℚ), Along b a ps →
    Along (affine s t b) (affine s t a) (ps.map (affine s t)) := by
  intro ps
  induction ps with
  | nil => intro _ _; trivial
  | cons p ps ih =>
    rintro a ⟨⟨c, h0, h1, rfl⟩, h⟩
    refine ⟨⟨c, h0, h1, ?_⟩, ih _ h⟩
    unfold affine
    dsimp only
    congr 1 <;> ring

theorem pieces_map {P Q : Type} (f : P → Q) (b : P) : ∀ (ps : List P) (a : P),
    pieces (f b) (f a) (ps.map f) = (pieces b a ps).map (Prod.map f f) := by
  intro ps
  induction ps with
  | nil => intro a; rfl
  | cons p ps ih =>
    intro a
    rw [List.map_cons, pieces, ih, pieces]
    rfl

/-- Scaling and moving keep a surface closed. -/
theorem closedAfterCuts_affine {ts : List (Tri (Vec ℚ))} (h : ClosedAfterCuts ts) (s : ℚ) (t : Vec ℚ) :
    ClosedAfterCuts (ts.map (moveTri (affine s t))) := by
  obtain ⟨cuts, hl, ha, hc⟩ := h
  have hz : ((ts.map (moveTri (affine s t))).flatMap triEdges).zip (cuts.map (List.map (affine s t))) =
      ((ts.flatMap triEdges).zip cuts).map (Prod.map (Prod.map (affine s t) (affine s t)) (List.map (affine s t))) := by
    rw [triEdges_move, List.zip_map]
  refine ⟨cuts.map (List.map (affine s t)), ?_, ?_, ?_⟩
  · rw [triEdges_move, List.length_map, List.length_map, hl]
  · rw [hz]
    intro x hx
    obtain ⟨y, hy, rfl⟩ := List.mem_map.mp hx
    exact along_affine s t _ _ _ (ha y hy)
  · rw [hz]
    rw [balanced_iff_perm] at hc ⊢
    have e : ((((ts.flatMap triEdges).zip cuts).map
        (Prod.map (Prod.map (affine s t) (affine s t)) (List.map (affine s t)))).flatMap fun x => pieces x.1.2 x.1.1 x.2) =
        (((ts.flatMap triEdges).zip cuts).flatMap fun x => pieces x.1.2 x.1.1 x.2).map
          (Prod.map (affine s t) (affine s t)) := by
      rw [List.flatMap_map, List.map_flatMap]
      refine List.flatMap_congr ?_
      intro x _
      exact pieces_map (affine s t) x.1.2 x.2 x.1.1
    rw [e]
    have := hc.map (Prod.map (affine s t) (affine s t))
    rw [List.map_map] at this
    rw [List.map_map]
    exact this

/-- Cutting an edge does not change its moment. -/
theorem pieces_moment (t b : Vec ℚ) : ∀ (ps : List (Vec ℚ)) (a : Vec ℚ), Along b a ps →
    ((pieces b a ps).map fun e => vdot t (vcross e.1 e.2)).sum = vdot t (vcross a b) := by
  intro ps
  induction ps with
  | nil => intro a _; simp [pieces]
  | cons p ps ih =>
    rintro a ⟨⟨c, -, -, rfl⟩, h⟩
    rw [pieces, List.map_cons, List.sum_cons, ih _ h]
    unfold vdot vcross
    dsimp only
    ring

theorem zip_moment (t : Vec ℚ) : ∀ (E : List (Vec ℚ × Vec ℚ)) (cuts : List (List (Vec ℚ))), cuts.length = E.length →
    (∀ x ∈ E.zip cuts, Along x.1.2 x.1.1 x.2) →
    (((E.zip cuts).flatMap fun x => pieces x.1.2 x.1.1 x.2).map fun e => vdot t (vcross e.1 e.2)).sum =
      (E.map fun e => vdot t (vcross e.1 e.2)).sum := by
  intro E
  induction E with
  | nil => intro cuts _ _; rfl
  | cons a E ih =>
    intro cuts hl h
    cases cuts with
    | nil => cases hl
    | cons c cuts =>
      rw [List.zip_cons_cons, List.flatMap_cons, List.map_append, List.sum_append,
        ih cuts (by simpa using hl) (fun x hx => h x (by rw [List.zip_cons_cons]; exact List.mem_cons_of_mem _ hx)),
        List.map_cons, List.sum_cons]
      congr 1
      exact pieces_moment t _ _ _ (h (a, c) (by simp))

/-- The volume enclosed by a closed surface scales with the cube of the factor and does not depend on
    where the surface is. -/
theorem volume_affine {ts : List (Tri (Vec ℚ))} (h : ClosedAfterCuts ts) (s : ℚ) (t : Vec ℚ) :
    volume (ts.map (moveTri (affine s t))) = s ^ 3 * volume ts := by
  have h0 : ((ts.flatMap triEdges).map fun e => vdot t (vcross e.1 e.2)).sum = 0 := by
    obtain ⟨cuts, hl, ha, hc⟩ := h
    rw [← zip_moment t _ cuts hl ha]
    exact sum_swap_neg _ (fun e => vdot t (vcross e.1 e.2))
      (by intro u v; unfold vdot vcross; dsimp only; ring) ((balanced_iff_perm _).mp hc)
  unfold volume
  rw [List.map_map]
  have key : ∀ ts : List (Tri (Vec ℚ)), (ts.map ((fun t => vdot t.V1 (vcross t.V2 t.V3)) ∘ moveTri (affine s t))).sum =
      s ^ 3 * (ts.map fun t => vdot t.V1 (vcross t.V2 t.V3)).sum +
        s ^ 2 * ((ts.flatMap triEdges).map fun e => vdot t (vcross e.1 e.2)).sum := by
    intro ts
    induction ts with
    | nil => simp
    | cons a ts ih =>
      rw [List.map_cons, List.sum_cons, ih, List.map_cons, List.sum_cons, List.flatMap_cons, List.map_append, List.sum_append]
      unfold triEdges moveTri affine vdot vcross
      simp only [Function.comp_apply, List.map_cons, List.map_nil, List.sum_cons, List.sum_nil]
      ring
  rw [key, h0]
  ring

namespace Cmd
variable {lib : GL ℚ} {b : BinVOX ℚ} {tris : List (Tri (Vec ℚ))}

/-- Half a voxel plus the translation. -/
theorem place_affine (b : BinVOX ℚ) : place b =
    affine (1 / b.VoxelsPerMM) ⟨1 / b.VoxelsPerMM * (1 / 2) + b.TX, 1 / b.VoxelsPerMM * (1 / 2) + b.TY,
      1 / b.VoxelsPerMM * (1 / 2) + b.TZ⟩ := by
  funext p
  unfold place place1 affine
  simp only [GoFloat.add, GoFloat.mul, GoFloat.div, GoFloat.ofInt, GoFloat.lit]
  norm_num

/-- **C73.** A point of the unit cube around the index of a voxel is put into the cube that voxel takes
    in the model, and only those are; the index itself comes to its centre. -/
theorem place_cube (hp : 0 < b.VoxelsPerMM) (k : Key) (p : Vec ℚ) :
    (InCube (unitModel []) k p ↔ InCube b k (place b p)) ∧ place b ⟨k.X, k.Y, k.Z⟩ = centre b k := by
  have hs : 0 < 1 / b.VoxelsPerMM := by positivity
  constructor
  · rw [place_affine]
    unfold InCube affine unitModel VoxelsPerMM vpmmOf
    simp only [GoFloat.le, GoFloat.ofInt]
    have hv : (if decide ((0 : ℚ) ≤ ((0 : Int) : ℚ)) = true then ((1 : Int) : ℚ) else GoFloat.div ((dimOf 0 0 0 : Int) : ℚ) 0) = 1 := by
      norm_num
    rw [hv]
    change _ ↔ _
    generalize hq : (1 / (if decide (b.Scale ≤ ((0 : Int) : ℚ)) = true then ((1 : Int) : ℚ) else
      GoFloat.div ((dimOf b.NX b.NY b.NZ : Int) : ℚ) b.Scale)) = s
    have hs' : 0 < s := by rw [← hq]; exact hs
    have e : ∀ a x : ℚ, (a ≤ x) ↔ s * a ≤ s * x := fun a x => (mul_le_mul_iff_right₀ hs').symm
    have key : ∀ (k : Int) (x t : ℚ), ((k : ℚ) * (1 / 1) + -(1 / 2) ≤ x ↔ (k : ℚ) * s + t ≤ s * x + (s * (1 / 2) + t)) ∧
        (x ≤ ((k : ℚ) + 1) * (1 / 1) + -(1 / 2) ↔ s * x + (s * (1 / 2) + t) ≤ ((k : ℚ) + 1) * s + t) := by
      intro k x t
      constructor
      · rw [e]
        constructor <;> intro h <;> linarith
      · rw [e]
        constructor <;> intro h <;> linarith
    rw [(key k.X p.X b.TX).1, (key k.X p.X b.TX).2, (key k.Y p.Y b.TY).1, (key k.Y p.Y b.TY).2, (key k.Z p.Z b.TZ).1,
      (key k.Z p.Z b.TZ).2]
  · rw [place_affine]
    unfold affine centre
    dsimp only
    congr 1 <;> ring

theorem present_unitModel (ks : List Key) (k : Key) : Present (unitModel ks) k ↔ k ∈ ks := by
  have hk : (unitModel ks).white.keys = ks := by
    show (ks.map fun k => (k, ())).map Prod.fst = ks
    rw [List.map_map]
    exact List.map_id ks
  have := Marching.present_iff (unitModel ks) (wo := ks) (co := []) (by rw [hk]) (List.Perm.refl _) k
  rw [List.append_nil] at this
  exact this.symm

theorem inCube_unit (ks : List Key) (k : Key) (p : Vec ℚ) : InCube (unitModel ks) k p ↔ InCube (unitModel []) k p := Iff.rfl

theorem onSkin_place (hp : 0 < b.VoxelsPerMM) {ks : List Key} (hk : ∀ k, k ∈ ks ↔ Present b k) {t : Tri (Vec ℚ)}
    (h : OnSkin (unitModel ks) t) : OnSkin b (moveTri (place b) t) := by
  obtain ⟨u, e, he, h1, h2, h3, h4, c, hc, hn⟩ := h
  have hs : 0 < 1 / b.VoxelsPerMM := by positivity
  have hcen : centroid (moveTri (place b) t) = place b (centroid t) := by
    rw [place_affine]
    unfold centroid moveTri affine
    dsimp only
    congr 1 <;> ring
  refine ⟨u, e, he, (hk _).mp ((present_unitModel ks _).mp h1), fun hx => h2 ((present_unitModel ks _).mpr ((hk _).mpr hx)), ?_, ?_,
    (1 / b.VoxelsPerMM) ^ 2 * c, by positivity, ?_⟩
  · rw [hcen]
    exact (place_cube hp _ _).1.mp h3
  · rw [hcen]
    exact (place_cube hp _ _).1.mp h4
  · have hnn : normal (moveTri (place b) t) = ⟨(1 / b.VoxelsPerMM) ^ 2 * (normal t).X, (1 / b.VoxelsPerMM) ^ 2 * (normal t).Y,
        (1 / b.VoxelsPerMM) ^ 2 * (normal t).Z⟩ := by
      rw [place_affine]
      unfold normal vcross vsub moveTri affine
      dsimp only
      congr 1 <;> ring
    rw [hnn, hn]
    congr 1 <;> ring

/-- **C73.** If the library meshes unit cubes correctly, `ToMesh` gives — for every map order — a closed
    mesh of the skin of the model's voxels in their place, which encloses exactly their volume. -/
theorem toMesh_exact (h : ToMeshRun lib b tris) (hp : 0 < b.VoxelsPerMM)
    (hlib : ∀ ks : List Key, (∀ k, k ∈ ks ↔ Present b k) → IsVoxelMesh ks (lib.voxelMesh ks)) :
    ClosedAfterCuts tris ∧ (∀ t ∈ tris, OnSkin b t) ∧
    ∀ vox : List Key, vox.Nodup → (∀ k, k ∈ vox ↔ Present b k) → volume tris = vox.length * (1 / b.VoxelsPerMM) ^ 3 := by
  obtain ⟨wo, co, hw, hc, rfl⟩ := h
  have hk := Marching.present_iff b hw hc
  generalize wo ++ co = ks at hk
  obtain ⟨h1, h2, h3⟩ := hlib ks hk
  refine ⟨by rw [place_affine]; exact closedAfterCuts_affine h1 _ _, ?_, ?_⟩
  · intro t ht
    obtain ⟨s, hs, rfl⟩ := List.mem_map.mp ht
    exact onSkin_place hp hk (h2 s hs)
  · intro vox hnd hv
    have hl : vox.length = ks.dedup.length :=
      (List.perm_of_nodup_nodup_toFinset_eq hnd ks.nodup_dedup (by
        ext k
        rw [List.mem_toFinset, List.mem_toFinset, List.mem_dedup, hv, hk])).length_eq
    rw [place_affine, volume_affine h1, h3, hl]
    ring

/-- **C73.** The mesh of `ToMesh` does not depend on the map order beyond the order in which the
    library is given the voxels: every vertex of it is a library vertex, half a voxel up, scaled and
    moved. -/
theorem toMesh_vertices (h : ToMeshRun lib b tris) :
    ∃ ks : List Key, (∀ k, k ∈ ks ↔ Present b k) ∧ tris = (lib.voxelMesh ks).map (moveTri fun p =>
      ⟨(p.X + 1 / 2) * (1 / b.VoxelsPerMM) + b.TX, (p.Y + 1 / 2) * (1 / b.VoxelsPerMM) + b.TY,
        (p.Z + 1 / 2) * (1 / b.VoxelsPerMM) + b.TZ⟩) := by
  obtain ⟨wo, co, hw, hc, rfl⟩ := h
  refine ⟨wo ++ co, Marching.present_iff b hw hc, ?_⟩
  congr 2
  rw [place_affine]
  funext p
  unfold affine
  dsimp only
  congr 1 <;> ring

/-- The two triangles of each face of the unit cube around the origin. -/
def cubeTris : List (Tri (Vec ℚ)) :=
  let v (i : Nat) : Vec ℚ := ⟨if i % 2 = 1 then 1 / 2 else -1 / 2, if i / 2 % 2 = 1 then 1 / 2 else -1 / 2,
    if i / 4 = 1 then 1 / 2 else -1 / 2⟩
  [(0, 2, 3), (0, 3, 1), (4, 5, 7), (4, 7, 6), (0, 1, 5), (0, 5, 4), (2, 6, 7), (2, 7, 3), (0, 4, 6), (0, 6, 2),
    (1, 3, 7), (1, 7, 5)].map fun p => ⟨v p.1, v p.2.1, v p.2.2⟩

/-- A model with one voxel. -/
def oneVoxel : BinVOX ℚ where
  NX := 2
  NY := 2
  NZ := 2
  TX := 3
  TY := -1
  TZ := 1 / 3
  Scale := 4
  WhiteVoxels := some [(⟨0, 0, 0⟩, ())]
  ColorVoxels := none

theorem cubeTris_closed : Closed cubeTris := by
  rw [closed_iff_perm]
  decide +kernel

/-- Where the normal of a triangle points. -/
def stepOf (t : Tri (Vec ℚ)) : Key :=
  ⟨(normal t).X.num.sign, (normal t).Y.num.sign, (normal t).Z.num.sign⟩

theorem cubeTris_skin : ∀ t ∈ cubeTris, stepOf t ∈ unitSteps ∧ InCube (unitModel [⟨0, 0, 0⟩]) ⟨0, 0, 0⟩ (centroid t) ∧
    InCube (unitModel [⟨0, 0, 0⟩]) (step ⟨0, 0, 0⟩ (stepOf t)) (centroid t) ∧
    normal t = ⟨1 * (stepOf t).X, 1 * (stepOf t).Y, 1 * (stepOf t).Z⟩ := by
  unfold InCube
  decide +kernel

/-- The hypotheses of `toMesh_exact` are met: with a library that meshes single voxels, the model with
    one voxel has a run of `ToMesh` with 12 triangles. -/
theorem exToMesh : ∃ lib : GL ℚ, (∀ ks : List Key, (∀ k, k ∈ ks ↔ Present oneVoxel k) → IsVoxelMesh ks (lib.voxelMesh ks)) ∧
    0 < oneVoxel.VoxelsPerMM ∧ ∃ tris, ToMeshRun lib oneVoxel tris ∧ tris.length = 12 := by
  refine ⟨⟨fun _ => 0, fun t => t.V1, fun _ => cubeTris⟩, ?_, by decide +kernel, _,
    ⟨[⟨0, 0, 0⟩], [], List.Perm.refl _, List.Perm.refl _, rfl⟩, rfl⟩
  intro ks hk
  have hmem : ∀ k, k ∈ ks ↔ k = ⟨0, 0, 0⟩ := by
    intro k
    rw [hk, ← Marching.present_iff oneVoxel (wo := [⟨0, 0, 0⟩]) (co := []) (List.Perm.refl _) (List.Perm.refl _)]
    simp
  refine ⟨closedAfterCuts_of_closed cubeTris_closed, ?_, ?_⟩
  · intro t ht
    obtain ⟨h1, h2, h3, h4⟩ := cubeTris_skin t ht
    refine ⟨⟨0, 0, 0⟩, stepOf t, h1, (present_unitModel ks _).mpr ((hmem _).mpr rfl), ?_, h2, h3, 1, one_pos, h4⟩
    rw [present_unitModel, hmem]
    have : ∀ e ∈ unitSteps, step ⟨0, 0, 0⟩ e ≠ ⟨0, 0, 0⟩ := by decide
    exact this _ h1
  · have hd : ks.dedup.length = 1 := by
      have hp : ks.dedup.Perm [⟨0, 0, 0⟩] := List.perm_of_nodup_nodup_toFinset_eq ks.nodup_dedup (by simp) (by
        ext k
        rw [List.mem_toFinset, List.mem_toFinset, List.mem_dedup, hmem]
        simp)
      rw [hp.length_eq]
      rfl
    rw [hd]
    show volume cubeTris = ((1 : Nat) : ℚ)
    decide +kernel

/-- Its mesh is closed, lies on the skin and encloses the volume of one voxel. -/
example : ∃ (lib : GL ℚ) (tris : List (Tri (Vec ℚ))), ToMeshRun lib oneVoxel tris ∧ ClosedAfterCuts tris ∧
    volume tris = (1 / oneVoxel.VoxelsPerMM) ^ 3 ∧
    ∃ ks : List Key, (∀ k, k ∈ ks ↔ Present oneVoxel k) ∧ tris = (lib.voxelMesh ks).map (moveTri fun p =>
      ⟨(p.X + 1 / 2) * (1 / oneVoxel.VoxelsPerMM) + oneVoxel.TX, (p.Y + 1 / 2) * (1 / oneVoxel.VoxelsPerMM) + oneVoxel.TY,
        (p.Z + 1 / 2) * (1 / oneVoxel.VoxelsPerMM) + oneVoxel.TZ⟩) := by
  obtain ⟨lib, hlib, hp, tris, hr, _⟩ := exToMesh
  obtain ⟨h1, -, h3⟩ := toMesh_exact hr hp hlib
  refine ⟨lib, tris, hr, h1, ?_, toMesh_vertices hr⟩
  rw [h3 [⟨0, 0, 0⟩] (by simp) (fun k => Marching.present_iff oneVoxel (wo := [⟨0, 0, 0⟩]) (co := []) (List.Perm.refl _) (List.Perm.refl _) k)]
  norm_num

/-- A cube that is moved and made twice as large is closed and has 8 times the volume. -/
example : ClosedAfterCuts (cubeTris.map (moveTri (affine 2 ⟨1, 2, 3⟩))) ∧ volume (cubeTris.map (moveTri (affine 2 ⟨1, 2, 3⟩))) = 8 := by
  have h := closedAfterCuts_of_closed cubeTris_closed
  refine ⟨closedAfterCuts_affine h 2 _, (volume_affine h 2 _).trans ?_⟩
  rw [show volume cubeTris = 1 by decide +kernel]
  norm_num

example (k : Key) (p : Vec ℚ) := place_cube (b := oneVoxel) (by decide +kernel) k p

end Cmd
end StlDice
