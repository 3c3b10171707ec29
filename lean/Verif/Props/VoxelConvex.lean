import Verif.Props.VoxelAccuracy
import Verif.Spec.Solid
import Verif.Lemmas.Polygon

/-! # Convex solids are voxelized to within one voxel (C98) -/

namespace StlDice
open Spec GoFloat BinVOX

/-! ## The solid -/

theorem sum_le (f : Vec ℚ → ℚ) (l : List (ℚ × Vec ℚ)) (h : ∀ e ∈ l, 0 ≤ e.1 ∧ f e.2 ≤ 0) : (l.map fun e => e.1 * f e.2).sum ≤ 0 := by
  induction l with
  | nil => exact le_rfl
  | cons a l ih =>
    rw [List.map_cons, List.sum_cons]
    have h1 := h a List.mem_cons_self
    have := mul_nonneg h1.1 (neg_nonneg.mpr h1.2)
    have := ih fun e he => h e (List.mem_cons_of_mem _ he)
    linarith

theorem sum_affine (a b c d : ℚ) (l : List (ℚ × Vec ℚ)) :
    (l.map fun e => e.1 * (a * e.2.X + b * e.2.Y + c * e.2.Z + d)).sum =
      a * (l.map fun e => e.1 * e.2.X).sum + b * (l.map fun e => e.1 * e.2.Y).sum + c * (l.map fun e => e.1 * e.2.Z).sum +
        d * (l.map fun e => e.1).sum := by
  induction l with
  | nil => simp
  | cons e l ih =>
    simp only [List.map_cons, List.sum_cons]
    rw [ih]; ring

/-- An affine function that is not positive on the corners is not positive on the solid. -/
theorem solid_le {m : Mesh ℚ} {v : Vec ℚ} (h : InSolid m v) (a b c d : ℚ)
    (hc : ∀ u, Corner m u → a * u.X + b * u.Y + c * u.Z + d ≤ 0) : a * v.X + b * v.Y + c * v.Z + d ≤ 0 := by
  obtain ⟨l, hl, hs, hx, hy, hz⟩ := h
  have := sum_le (fun u => a * u.X + b * u.Y + c * u.Z + d) l fun e he => ⟨(hl e he).1, hc _ (hl e he).2⟩
  rw [sum_affine, hs, ← hx, ← hy, ← hz] at this
  linarith

theorem sum_lt (f : Vec ℚ → ℚ) (l : List (ℚ × Vec ℚ)) (h : ∀ e ∈ l, 0 ≤ e.1 ∧ f e.2 < 0) (hp : 0 < (l.map fun e => e.1).sum) :
    (l.map fun e => e.1 * f e.2).sum < 0 := by
  induction l with
  | nil => exact absurd hp (lt_irrefl _)
  | cons a l ih =>
    rw [List.map_cons, List.sum_cons] at hp ⊢
    have h1 := h a List.mem_cons_self
    have h2 := sum_le f l fun e he => ⟨(h e (List.mem_cons_of_mem _ he)).1, (h e (List.mem_cons_of_mem _ he)).2.le⟩
    rcases eq_or_lt_of_le h1.1 with h0 | h0
    · rw [← h0] at hp ⊢
      have := ih (fun e he => h e (List.mem_cons_of_mem _ he)) (by linarith)
      linarith
    · have := mul_pos h0 (neg_pos.mpr h1.2)
      linarith

theorem solid_lt {m : Mesh ℚ} {v : Vec ℚ} (h : InSolid m v) (a b c d : ℚ)
    (hc : ∀ u, Corner m u → a * u.X + b * u.Y + c * u.Z + d < 0) : a * v.X + b * v.Y + c * v.Z + d < 0 := by
  obtain ⟨l, hl, hs, hx, hy, hz⟩ := h
  have := sum_lt (fun u => a * u.X + b * u.Y + c * u.Z + d) l (fun e he => ⟨(hl e he).1, hc _ (hl e he).2⟩) (by rw [hs]; exact zero_lt_one)
  rw [sum_affine, hs, ← hx, ← hy, ← hz] at this
  linarith

theorem sum_scale (s : ℚ) (f : ℚ × Vec ℚ → ℚ) (g : Vec ℚ → ℚ) (hf : ∀ e, f e = e.1 * g e.2) (l : List (ℚ × Vec ℚ)) :
    ((l.map fun e => (s * e.1, e.2)).map f).sum = s * (l.map f).sum := by
  induction l with
  | nil => simp
  | cons a l ih =>
    simp only [List.map_cons, List.sum_cons]
    rw [ih, hf, hf]; ring

/-- The solid is convex. -/
theorem solid_convex {m : Mesh ℚ} {u v : Vec ℚ} (hu : InSolid m u) (hv : InSolid m v) {s : ℚ} (h0 : 0 ≤ s) (h1 : s ≤ 1) :
    InSolid m (along u v s) := by
  obtain ⟨l, hl, hs, hx, hy, hz⟩ := hu
  obtain ⟨l', hl', hs', hx', hy', hz'⟩ := hv
  have h1' : 0 ≤ 1 - s := by linarith
  refine ⟨(l.map fun e => ((1 - s) * e.1, e.2)) ++ (l'.map fun e => (s * e.1, e.2)), ?_, ?_, ?_, ?_, ?_⟩
  · intro e he
    rcases List.mem_append.mp he with he | he <;> obtain ⟨a, ha, rfl⟩ := List.mem_map.mp he
    · exact ⟨mul_nonneg h1' (hl a ha).1, (hl a ha).2⟩
    · exact ⟨mul_nonneg h0 (hl' a ha).1, (hl' a ha).2⟩
  · rw [List.map_append, List.sum_append, sum_scale _ _ (fun _ => 1) (by intro e; ring), sum_scale _ _ (fun _ => 1) (by intro e; ring), hs, hs']; ring
  · rw [List.map_append, List.sum_append, sum_scale _ _ (fun u => u.X) (by intro e; rfl), sum_scale _ _ (fun u => u.X) (by intro e; rfl), ← hx, ← hx']
    show u.X + s * (v.X - u.X) = _
    ring
  · rw [List.map_append, List.sum_append, sum_scale _ _ (fun u => u.Y) (by intro e; rfl), sum_scale _ _ (fun u => u.Y) (by intro e; rfl), ← hy, ← hy']
    show u.Y + s * (v.Y - u.Y) = _
    ring
  · rw [List.map_append, List.sum_append, sum_scale _ _ (fun u => u.Z) (by intro e; rfl), sum_scale _ _ (fun u => u.Z) (by intro e; rfl), ← hz, ← hz']
    show u.Z + s * (v.Z - u.Z) = _
    ring

theorem surface_in_solid {m : Mesh ℚ} {v : Vec ℚ} (h : OnSurface m v) : InSolid m v := by
  obtain ⟨p, hp, i, j, k, hi, hj, hk, hs, hx, hy, hz⟩ := h
  refine ⟨[(i, (m.heap p).V1.Position), (j, (m.heap p).V2.Position), (k, (m.heap p).V3.Position)], ?_, ?_, ?_, ?_, ?_⟩
  · intro e he
    simp only [List.mem_cons, List.not_mem_nil, or_false] at he
    rcases he with rfl | rfl | rfl
    · exact ⟨hi, p, hp, .inl rfl⟩
    · exact ⟨hj, p, hp, .inr (.inl rfl)⟩
    · exact ⟨hk, p, hp, .inr (.inr rfl)⟩
  · simp only [List.map_cons, List.map_nil, List.sum_cons, List.sum_nil]; linarith
  · simp only [List.map_cons, List.map_nil, List.sum_cons, List.sum_nil]; linarith
  · simp only [List.map_cons, List.map_nil, List.sum_cons, List.sum_nil]; linarith
  · simp only [List.map_cons, List.map_nil, List.sum_cons, List.sum_nil]; linarith

/-! ## The section of the surface at a height -/

/-- The point of the edge at height `z`, seen from above. -/
def edgePt (z : ℚ) (a c : Vec ℚ) : ℚ × ℚ := (edgeAt a.X a.Z c.X c.Z z, edgeAt a.Y a.Z c.Y c.Z z)

theorem edgeAt_symm {x0 z0 x1 z1 z : ℚ} (h : z0 ≠ z1) : edgeAt x0 z0 x1 z1 z = edgeAt x1 z1 x0 z0 z := by
  unfold edgeAt
  have h1 : z1 - z0 ≠ 0 := fun e => h (by linarith)
  have h2 : z0 - z1 ≠ 0 := fun e => h (by linarith)
  have e : z0 - z1 = -(z1 - z0) := by ring
  rw [e]
  field_simp
  ring

theorem edgePt_symm {z : ℚ} {a c : Vec ℚ} (h : a.Z ≠ c.Z) : edgePt z a c = edgePt z c a := by
  unfold edgePt
  rw [edgeAt_symm h, edgeAt_symm h]

/-- `U` and `D` are where the edges of the triangle cross the height upwards and downwards. -/
structure Section (t : Tri (Vec ℚ)) (z : ℚ) (U D : ℚ × ℚ) : Prop where
  up : ∀ e ∈ triEdges t, e.1.Z < z → z < e.2.Z → edgePt z e.1 e.2 = U
  down : ∀ e ∈ triEdges t, e.2.Z < z → z < e.1.Z → edgePt z e.1 e.2 = D
  hasUp : ∃ e ∈ triEdges t, e.1.Z < z ∧ z < e.2.Z
  hasDown : ∃ e ∈ triEdges t, e.2.Z < z ∧ z < e.1.Z
  dir : ∃ k, 0 < k ∧ D.1 = U.1 + k * (normal t).Y ∧ D.2 = U.2 - k * (normal t).X

/-- The direction of the section, one corner `A` on one side: with `B`, `C` on the other. -/
theorem section_dir {A B C : Vec ℚ} {z : ℚ} (h : (A.Z < z ∧ z < B.Z ∧ z < C.Z) ∨ (z < A.Z ∧ B.Z < z ∧ C.Z < z)) :
    ∃ k, 0 < k ∧ (edgePt z A C).1 = (edgePt z A B).1 + (z - A.Z) * (k * ((B.Z - A.Z) * (C.X - A.X) - (B.X - A.X) * (C.Z - A.Z))) ∧
      (edgePt z A C).2 = (edgePt z A B).2 - (z - A.Z) * (k * ((B.Y - A.Y) * (C.Z - A.Z) - (B.Z - A.Z) * (C.Y - A.Y))) := by
  have hb : B.Z - A.Z ≠ 0 := by intro e; rcases h with h | h <;> linarith
  have hc : C.Z - A.Z ≠ 0 := by intro e; rcases h with h | h <;> linarith
  refine ⟨1 / ((B.Z - A.Z) * (C.Z - A.Z)), ?_, ?_, ?_⟩
  · apply one_div_pos.mpr
    rcases h with h | h
    · exact mul_pos (by linarith) (by linarith)
    · exact mul_pos_of_neg_of_neg (by linarith) (by linarith)
  · unfold edgePt edgeAt
    dsimp only
    field_simp
    ring
  · unfold edgePt edgeAt
    dsimp only
    field_simp
    ring

theorem normal_rotate (A B C : Vec ℚ) : normal ⟨B, C, A⟩ = normal ⟨A, B, C⟩ := by
  unfold normal vcross vsub
  simp only [Vec.mk.injEq]
  refine ⟨?_, ?_, ?_⟩ <;> ring

theorem Section.rotate {A B C : Vec ℚ} {z : ℚ} {U D : ℚ × ℚ} (h : Section ⟨B, C, A⟩ z U D) : Section ⟨A, B, C⟩ z U D := by
  have hm : ∀ e, e ∈ triEdges (⟨A, B, C⟩ : Tri (Vec ℚ)) ↔ e ∈ triEdges (⟨B, C, A⟩ : Tri (Vec ℚ)) := by
    intro e
    unfold triEdges
    simp only [List.mem_cons, List.not_mem_nil, or_false]
    tauto
  refine ⟨fun e he => h.up e ((hm e).mp he), fun e he => h.down e ((hm e).mp he), ?_, ?_, ?_⟩
  · obtain ⟨e, he, h1⟩ := h.hasUp
    exact ⟨e, (hm e).mpr he, h1⟩
  · obtain ⟨e, he, h1⟩ := h.hasDown
    exact ⟨e, (hm e).mpr he, h1⟩
  · obtain ⟨k, hk, h1, h2⟩ := h.dir
    rw [normal_rotate] at h1 h2
    exact ⟨k, hk, h1, h2⟩

theorem section_alone {A B C : Vec ℚ} {z : ℚ} (h : (A.Z < z ∧ z < B.Z ∧ z < C.Z) ∨ (z < A.Z ∧ B.Z < z ∧ C.Z < z)) :
    ∃ U D, Section ⟨A, B, C⟩ z U D := by
  obtain ⟨k, hk, h1, h2⟩ := section_dir h
  have ed : ∀ e, e ∈ triEdges (⟨A, B, C⟩ : Tri (Vec ℚ)) ↔ e = (A, B) ∨ e = (B, C) ∨ e = (C, A) := by
    intro e
    unfold triEdges
    simp only [List.mem_cons, List.not_mem_nil, or_false]
  have sy : edgePt z C A = edgePt z A C := edgePt_symm (by intro e; rcases h with h | h <;> linarith)
  rcases h with ⟨a, b, c⟩ | ⟨a, b, c⟩
  · refine ⟨edgePt z A B, edgePt z A C, ?_, ?_, ⟨(A, B), (ed _).mpr (.inl rfl), a, b⟩, ⟨(C, A), (ed _).mpr (.inr (.inr rfl)), a, c⟩, ?_⟩
    · intro e he l1 l2
      rcases (ed e).mp he with rfl | rfl | rfl <;> dsimp only at *
      · linarith
      · linarith
    · intro e he l1 l2
      rcases (ed e).mp he with rfl | rfl | rfl <;> dsimp only at *
      · linarith
      · linarith
      · exact sy
    · refine ⟨(z - A.Z) * k, mul_pos (by linarith) hk, ?_, ?_⟩
      · rw [h1]; unfold normal vcross vsub; ring
      · rw [h2]; unfold normal vcross vsub; ring
  · refine ⟨edgePt z A C, edgePt z A B, ?_, ?_, ⟨(C, A), (ed _).mpr (.inr (.inr rfl)), c, a⟩, ⟨(A, B), (ed _).mpr (.inl rfl), b, a⟩, ?_⟩
    · intro e he l1 l2
      rcases (ed e).mp he with rfl | rfl | rfl <;> dsimp only at *
      · linarith
      · linarith
      · exact sy
    · intro e he l1 l2
      rcases (ed e).mp he with rfl | rfl | rfl <;> dsimp only at *
      · linarith
      · linarith
    · refine ⟨(A.Z - z) * k, mul_pos (by linarith) hk, ?_, ?_⟩
      · rw [h1]; unfold normal vcross vsub; ring
      · rw [h2]; unfold normal vcross vsub; ring

/-- A triangle with corners on both sides of a height, and none at it, has a section. -/
theorem section_exists {t : Tri (Vec ℚ)} {z : ℚ} (n1 : t.V1.Z ≠ z) (n2 : t.V2.Z ≠ z) (n3 : t.V3.Z ≠ z)
    (ha : ¬ (t.V1.Z < z ∧ t.V2.Z < z ∧ t.V3.Z < z)) (hb : ¬ (z < t.V1.Z ∧ z < t.V2.Z ∧ z < t.V3.Z)) :
    ∃ U D, Section t z U D := by
  obtain ⟨A, B, C⟩ := t
  dsimp only at *
  rcases lt_or_gt_of_ne n1 with l1 | l1 <;> rcases lt_or_gt_of_ne n2 with l2 | l2 <;> rcases lt_or_gt_of_ne n3 with l3 | l3
  · exact absurd ⟨l1, l2, l3⟩ ha
  · obtain ⟨U, D, h⟩ := section_alone (A := C) (B := A) (C := B) (.inr ⟨l3, l1, l2⟩)
    exact ⟨U, D, h.rotate.rotate⟩
  · obtain ⟨U, D, h⟩ := section_alone (A := B) (B := C) (C := A) (.inr ⟨l2, l3, l1⟩)
    exact ⟨U, D, h.rotate⟩
  · exact section_alone (.inl ⟨l1, l2, l3⟩)
  · exact section_alone (.inr ⟨l1, l2, l3⟩)
  · obtain ⟨U, D, h⟩ := section_alone (A := B) (B := C) (C := A) (.inl ⟨l2, l3, l1⟩)
    exact ⟨U, D, h.rotate⟩
  · obtain ⟨U, D, h⟩ := section_alone (A := C) (B := A) (C := B) (.inl ⟨l3, l1, l2⟩)
    exact ⟨U, D, h.rotate.rotate⟩
  · exact absurd ⟨l1, l2, l3⟩ hb

/-- The point of a crossing edge is a point of the triangle, and of its plane. -/
theorem edgePt_in {t : Triangle ℚ} {z : ℚ} {e : Vec ℚ × Vec ℚ} (he : e ∈ triEdges (triOf t))
    (h : (e.1.Z < z ∧ z < e.2.Z) ∨ (e.2.Z < z ∧ z < e.1.Z)) :
    InTriangle t ⟨(edgePt z e.1 e.2).1, (edgePt z e.1 e.2).2, z⟩ := by
  have on : OnSegment e.1 e.2 ⟨(edgePt z e.1 e.2).1, (edgePt z e.1 e.2).2, z⟩ := by
    have hne : e.2.Z - e.1.Z ≠ 0 := by intro h0; rcases h with h | h <;> linarith
    refine ⟨(z - e.1.Z) / (e.2.Z - e.1.Z), ?_, ?_, ?_, ?_, ?_⟩
    · rcases h with h | h
      · exact div_nonneg (by linarith) (by linarith)
      · exact div_nonneg_of_nonpos (by linarith) (by linarith)
    · rcases h with h | h
      · rw [div_le_one (by linarith)]; linarith
      · rw [div_le_one_of_neg (by linarith)]; linarith
    · unfold edgePt edgeAt; dsimp only; ring
    · unfold edgePt edgeAt; dsimp only; ring
    · dsimp only; rw [div_mul_cancel₀ _ hne]; ring
  apply onEdge_in
  unfold triEdges triOf at he
  simp only [List.mem_cons, List.not_mem_nil, or_false] at he
  rcases he with rfl | rfl | rfl
  · exact .inl on
  · exact .inr (.inl on)
  · exact .inr (.inr on)

/-- The points of a triangle lie in its plane. -/
theorem in_plane {t : Triangle ℚ} {v : Vec ℚ} (h : InTriangle t v) :
    vdot (normal (triOf t)) (vsub v t.V1.Position) = 0 := by
  obtain ⟨i, j, k, -, -, -, hs, hx, hy, hz⟩ := h
  have hi : i = 1 - j - k := by linarith
  subst hi
  unfold vdot normal vcross vsub triOf
  dsimp only
  rw [hx, hy, hz]
  ring

/-- All points of the solid are on the inner side of each triangle. -/
theorem solid_inner {m : Mesh ℚ} (hm : ConvexMesh m) {p : Nat} (hp : p ∈ m.Triangles) {v : Vec ℚ} (hv : InSolid m v) :
    vdot (normal (triOf (m.heap p))) (vsub v (m.heap p).V1.Position) ≤ 0 := by
  have e : ∀ u : Vec ℚ, vdot (normal (triOf (m.heap p))) (vsub u (m.heap p).V1.Position) =
      (normal (triOf (m.heap p))).X * u.X + (normal (triOf (m.heap p))).Y * u.Y + (normal (triOf (m.heap p))).Z * u.Z +
        -((normal (triOf (m.heap p))).X * (m.heap p).V1.Position.X + (normal (triOf (m.heap p))).Y * (m.heap p).V1.Position.Y +
          (normal (triOf (m.heap p))).Z * (m.heap p).V1.Position.Z) := by
    intro u
    unfold vdot vsub
    dsimp only
    ring
  rw [e]
  apply solid_le hv
  intro u hu
  rw [← e]
  exact hm.convex p hp u hu

/-- The normal of a triangle, seen from above. -/
def flatNormal (t : Triangle ℚ) : ℚ × ℚ := ((normal (triOf t)).X, (normal (triOf t)).Y)

theorem side_eq {t : Triangle ℚ} {z : ℚ} {U : ℚ × ℚ} (hU : InTriangle t ⟨U.1, U.2, z⟩) (v : ℚ × ℚ) :
    (flatNormal t).1 * (v.1 - U.1) + (flatNormal t).2 * (v.2 - U.2) =
      vdot (normal (triOf t)) (vsub ⟨v.1, v.2, z⟩ t.V1.Position) := by
  have h := in_plane hU
  unfold flatNormal
  unfold vdot vsub at *
  dsimp only at *
  linear_combination -h

theorem closed_back {m : Mesh ℚ} (hm : ConvexMesh m) {p : Nat} (hp : p ∈ m.Triangles) {a c : Vec ℚ}
    (he : (a, c) ∈ triEdges (triOf (m.heap p))) : ∃ q ∈ m.Triangles, (c, a) ∈ triEdges (triOf (m.heap q)) := by
  have h1 : (a, c) ∈ (m.Triangles.map fun p => triOf (m.heap p)).flatMap triEdges :=
    List.mem_flatMap.mpr ⟨_, List.mem_map.mpr ⟨p, hp, rfl⟩, he⟩
  have h2 : (c, a) ∈ (m.Triangles.map fun p => triOf (m.heap p)).flatMap triEdges := by
    rw [← List.count_pos_iff] at h1 ⊢
    rw [← hm.closed]
    exact h1
  obtain ⟨t, ht, h3⟩ := List.mem_flatMap.mp h2
  obtain ⟨q, hq, rfl⟩ := List.mem_map.mp ht
  exact ⟨q, hq, h3⟩

/-- No corner of the mesh lies at the height. -/
def NoCornerAt (m : Mesh ℚ) (z : ℚ) : Prop := ∀ v, Corner m v → v.Z ≠ z

theorem edge_corners {t : Triangle ℚ} {e : Vec ℚ × Vec ℚ} (h : e ∈ triEdges (triOf t)) : CornerOf t e.1 ∧ CornerOf t e.2 := by
  unfold triEdges triOf at h
  simp only [List.mem_cons, List.not_mem_nil, or_false] at h
  rcases h with rfl | rfl | rfl
  · exact ⟨.inl rfl, .inr (.inl rfl)⟩
  · exact ⟨.inr (.inl rfl), .inr (.inr rfl)⟩
  · exact ⟨.inr (.inr rfl), .inl rfl⟩

theorem section_of_corners {m : Mesh ℚ} {z : ℚ} (hz : NoCornerAt m z) {p : Nat} (hp : p ∈ m.Triangles) {u v : Vec ℚ}
    (hu : CornerOf (m.heap p) u) (hv : CornerOf (m.heap p) v) (h1 : u.Z < z) (h2 : z < v.Z) :
    ∃ U D, Section (triOf (m.heap p)) z U D := by
  have n1 := hz (m.heap p).V1.Position ⟨p, hp, .inl rfl⟩
  have n2 := hz (m.heap p).V2.Position ⟨p, hp, .inr (.inl rfl)⟩
  have n3 := hz (m.heap p).V3.Position ⟨p, hp, .inr (.inr rfl)⟩
  apply section_exists (t := triOf (m.heap p)) n1 n2 n3
  · rintro ⟨a, b, c⟩
    unfold triOf at a b c
    rcases hv with rfl | rfl | rfl <;> linarith
  · rintro ⟨a, b, c⟩
    unfold triOf at a b c
    rcases hu with rfl | rfl | rfl <;> linarith

/-- The sections of the triangles of a convex mesh at a height form a ring around the points of the solid at this height. -/
theorem section_ring {m : Mesh ℚ} (hm : ConvexMesh m) {z : ℚ} (hz : NoCornerAt m z) :
    ∃ (S : List Nat) (s e : Nat → ℚ × ℚ), (∀ p, p ∈ S ↔ p ∈ m.Triangles ∧ ∃ U D, Section (triOf (m.heap p)) z U D) ∧
      (∀ p ∈ S, InTriangle (m.heap p) ⟨(s p).1, (s p).2, z⟩ ∧ InTriangle (m.heap p) ⟨(e p).1, (e p).2, z⟩) ∧
      Polygon.Ring S s e (fun p => flatNormal (m.heap p)) := by
  classical
  have hex : ∀ p, ∃ UD : (ℚ × ℚ) × (ℚ × ℚ), (∃ U D, Section (triOf (m.heap p)) z U D) → Section (triOf (m.heap p)) z UD.1 UD.2 := by
    intro p
    by_cases h : ∃ U D, Section (triOf (m.heap p)) z U D
    · obtain ⟨U, D, hs⟩ := h
      exact ⟨(U, D), fun _ => hs⟩
    · exact ⟨((0, 0), (0, 0)), fun h' => absurd h' h⟩
  choose f hf using hex
  have hS : ∀ p, p ∈ m.Triangles.filter (fun p => decide (∃ U D, Section (triOf (m.heap p)) z U D)) ↔
      p ∈ m.Triangles ∧ ∃ U D, Section (triOf (m.heap p)) z U D := by
    intro p
    rw [List.mem_filter, decide_eq_true_eq]
  have hin : ∀ p ∈ m.Triangles.filter (fun p => decide (∃ U D, Section (triOf (m.heap p)) z U D)),
      InTriangle (m.heap p) ⟨(f p).1.1, (f p).1.2, z⟩ ∧ InTriangle (m.heap p) ⟨(f p).2.1, (f p).2.2, z⟩ := by
    intro p hp
    have h := hf p ((hS p).mp hp).2
    constructor
    · obtain ⟨e, he, h1, h2⟩ := h.hasUp
      have := edgePt_in he (.inl ⟨h1, h2⟩)
      rwa [h.up e he h1 h2] at this
    · obtain ⟨e, he, h1, h2⟩ := h.hasDown
      have := edgePt_in he (.inr ⟨h1, h2⟩)
      rwa [h.down e he h1 h2] at this
  refine ⟨_, fun p => (f p).1, fun p => (f p).2, hS, hin, ?_⟩
  constructor
  · intro p hp
    exact (hf p ((hS p).mp hp).2).dir
  · intro p hp h0 h1
    have hs := hf p ((hS p).mp hp).2
    have hpt := ((hS p).mp hp).1
    -- a vertical normal: all corners at one height
    unfold flatNormal at h0 h1
    dsimp only at h0 h1
    have hp1 : ∀ v, CornerOf (m.heap p) v → vdot (normal (triOf (m.heap p))) (vsub v (m.heap p).V1.Position) = 0 := by
      intro v hv
      apply in_plane
      rcases hv with rfl | rfl | rfl
      · exact ⟨1, 0, 0, zero_le_one, le_rfl, le_rfl, by norm_num, by ring, by ring, by ring⟩
      · exact ⟨0, 1, 0, le_rfl, zero_le_one, le_rfl, by norm_num, by ring, by ring, by ring⟩
      · exact ⟨0, 0, 1, le_rfl, le_rfl, zero_le_one, by norm_num, by ring, by ring, by ring⟩
    have hnz : (normal (triOf (m.heap p))).Z ≠ 0 := by
      intro h2
      apply hm.proper p hpt
      generalize normal (triOf (m.heap p)) = N at *
      obtain ⟨X, Y, Z⟩ := N
      dsimp only at h0 h1 h2
      rw [h0, h1, h2]
    have hh : ∀ v, CornerOf (m.heap p) v → v.Z = (m.heap p).V1.Position.Z := by
      intro v hv
      have := hp1 v hv
      unfold vdot vsub at this
      rw [h0, h1] at this
      dsimp only at this
      have h3 : (normal (triOf (m.heap p))).Z * (v.Z - (m.heap p).V1.Position.Z) = 0 := by linarith
      have := (mul_eq_zero.mp h3).resolve_left hnz
      linarith
    obtain ⟨e, he, l1, l2⟩ := hs.hasUp
    have c1 := hh _ (edge_corners he).1
    have c2 := hh _ (edge_corners he).2
    linarith
  · intro p hp
    have hs := hf p ((hS p).mp hp).2
    obtain ⟨e, he, l1, l2⟩ := hs.hasDown
    obtain ⟨q, hq, hb⟩ := closed_back hm ((hS p).mp hp).1 (a := e.1) (c := e.2) he
    have hc := edge_corners hb
    have hsec := section_of_corners hz hq hc.1 hc.2 l1 l2
    refine ⟨q, (hS q).mpr ⟨hq, hsec⟩, ?_⟩
    rw [← hs.down e he l1 l2, ← (hf q hsec).up _ hb l1 l2]
    exact edgePt_symm (by intro h; linarith)
  · intro p hp
    have hs := hf p ((hS p).mp hp).2
    obtain ⟨e, he, l1, l2⟩ := hs.hasUp
    obtain ⟨q, hq, hb⟩ := closed_back hm ((hS p).mp hp).1 (a := e.1) (c := e.2) he
    have hc := edge_corners hb
    have hsec := section_of_corners hz hq hc.2 hc.1 l1 l2
    refine ⟨q, (hS q).mpr ⟨hq, hsec⟩, ?_⟩
    rw [← hs.up e he l1 l2, ← (hf q hsec).down _ hb l1 l2]
    exact edgePt_symm (by intro h; linarith)
  · intro p hp q hq
    have hpt := (hS p).mp hp
    have hqt := (hS q).mp hq
    unfold Polygon.side
    dsimp only
    constructor
    · rw [side_eq (hin p hp).1]
      exact solid_inner hm hpt.1 (surface_in_solid ⟨q, hqt.1, (hin q hq).2⟩)
    · rw [side_eq (hin p hp).1]
      exact solid_inner hm hpt.1 (surface_in_solid ⟨q, hqt.1, (hin q hq).1⟩)

/-- A point of the solid at the height: some triangle is cut. -/
theorem some_section {m : Mesh ℚ} (hm : ConvexMesh m) {z : ℚ} (hz : NoCornerAt m z) {v : Vec ℚ} (hv : InSolid m v) (hvz : v.Z = z) :
    ∃ p ∈ m.Triangles, ∃ U D, Section (triOf (m.heap p)) z U D := by
  have low : ∃ u, Corner m u ∧ u.Z < z := by
    by_contra h
    push Not at h
    have := solid_lt hv 0 0 (-1) z (by
      intro u hu
      have := lt_of_le_of_ne (h u hu) (Ne.symm (hz u hu))
      linarith)
    linarith
  have high : ∃ u, Corner m u ∧ z < u.Z := by
    by_contra h
    push Not at h
    have := solid_lt hv 0 0 1 (-z) (by
      intro u hu
      have := lt_of_le_of_ne (h u hu) (hz u hu)
      linarith)
    linarith
  obtain ⟨u, hu, lu⟩ := low
  obtain ⟨w, hw, lw⟩ := high
  have hl := hm.connected u w hu hw
  clear hw
  induction hl with
  | refl => linarith
  | @tail a c _ hstep ih =>
    obtain ⟨p, hp, ha, hc⟩ := hstep
    by_cases hcase : z < a.Z
    · exact ih hcase
    · have hne := hz a ⟨p, hp, ha⟩
      have hlt : a.Z < z := lt_of_le_of_ne (not_lt.mp hcase) hne
      exact ⟨p, hp, section_of_corners hz hp ha hc hlt lw⟩

/-! ## Rows -/

theorem noCorner_of_clean {b : BinVOX ℚ} {m : Mesh ℚ} {zi : Int} (h : CleanSlice b m zi) : NoCornerAt m (sliceMiddle b zi) := by
  rintro v ⟨p, hp, hv⟩
  obtain ⟨n1, n2, n3, -⟩ := h p hp
  rcases hv with rfl | rfl | rfl
  · exact n1
  · exact n2
  · exact n3

/-- A triangle with points at the height of the slice on both sides of the middle of a row touches a cell of the row. -/
theorem row_touched {b : BinVOX ℚ} {m : Mesh ℚ} {zi y : Int} (hy0 : 0 ≤ y) (hy1 : y < b.NY) {p : Nat} (hp : p ∈ m.Triangles)
    (hc : CleanCut (m.heap p) (sliceMiddle b zi)) {u v : Vec ℚ} (hu : InTriangle (m.heap p) u) (hv : InTriangle (m.heap p) v)
    (zu : u.Z = sliceMiddle b zi) (zv : v.Z = sliceMiddle b zi) (h1 : gy b u ≤ y + 1 / 2) (h2 : (y : ℚ) + 1 / 2 ≤ gy b v) :
    ∃ x, Touches b m zi y p x := by
  obtain ⟨q, hq, su⟩ := clean_cut hc p hu zu
  obtain ⟨q', hq', sv⟩ := clean_cut hc p hv zv
  rw [hq] at hq'
  cases hq'
  rw [onSegment_along] at su sv
  obtain ⟨t, t0, t1, rfl⟩ := su
  obtain ⟨t', t0', t1', rfl⟩ := sv
  rw [gy_along] at h1 h2
  have key : (gy b q.v1 ≤ y + 1 / 2 ∧ (y : ℚ) + 1 / 2 ≤ gy b q.v2) ∨ (gy b q.v2 ≤ y + 1 / 2 ∧ (y : ℚ) + 1 / 2 ≤ gy b q.v1) := by
    generalize gy b q.v1 = f at *
    generalize gy b q.v2 = g at *
    generalize (y : ℚ) + 1 / 2 = c at *
    rcases le_total f c with hf | hf <;> rcases le_total g c with hg | hg
    · rcases eq_or_lt_of_le hf with e | e
      · exact .inr ⟨hg, e.ge⟩
      rcases eq_or_lt_of_le hg with e' | e'
      · exact .inl ⟨hf, e'.ge⟩
      exfalso
      have := convex_lt t' f g c t0' t1' e e'
      linarith
    · exact .inl ⟨hf, hg⟩
    · exact .inr ⟨hg, hf⟩
    · rcases eq_or_lt_of_le hf with e | e
      · exact .inl ⟨e.ge, hg⟩
      rcases eq_or_lt_of_le hg with e' | e'
      · exact .inr ⟨e'.ge, hf⟩
      exfalso
      have := convex_gt t f g c t0 t1 e e'
      linarith
  have fl : ∀ c : ℚ, c ≤ y + 1 / 2 → ⌊c⌋ ≤ y := by
    intro c hc
    have : ⌊c⌋ < y + 1 := by
      rw [Int.floor_lt]
      push_cast
      linarith
    omega
  have fg : ∀ c : ℚ, (y : ℚ) + 1 / 2 ≤ c → y ≤ ⌊c⌋ := by
    intro c hc
    rw [Int.le_floor]
    linarith
  obtain ⟨x, hx⟩ := rasterLine_row (x1 := gridCoord b.VoxelsPerMM q.v1.X b.TX) (y1 := gridCoord b.VoxelsPerMM q.v1.Y b.TY)
    (x2 := gridCoord b.VoxelsPerMM q.v2.X b.TX) (y2 := gridCoord b.VoxelsPerMM q.v2.Y b.TY) (y := y) (by
      rw [gridCoord_rat, gridCoord_rat]
      rcases key with ⟨k1, k2⟩ | ⟨k1, k2⟩
      · exact .inl ⟨fl _ k1, fg _ k2⟩
      · exact .inr ⟨fl _ k1, fg _ k2⟩)
  exact ⟨x, hp, hy0, hy1, q, by rw [sliceHeight_rat]; exact hq, hx⟩

/-- A triangle that touches a row touches it somewhere first. -/
theorem first_touch {F : Type} [GoFloat F] {b : BinVOX F} {m : Mesh F} {zi y : Int} {p : Nat} {x : Int} (h : Touches b m zi y p x) :
    ∃ x0, x0 ≤ x ∧ FirstTouch (Touches b m zi y) p x0 := by
  obtain ⟨hp, h0, h1, q, hq, hm⟩ := h
  obtain ⟨⟨x0, y0⟩, hm0, rfl, hmax⟩ := Polygon.exists_max (pairPoints b b.VoxelsPerMM q) (fun e => e.2 = y) (fun e => -(e.1 : ℚ)) ⟨_, hm, rfl⟩
  have hmin : ∀ x', (x', y0) ∈ pairPoints b b.VoxelsPerMM q → x0 ≤ x' := by
    intro x' hx'
    have := hmax _ hx' rfl
    dsimp only at this
    have : (x0 : ℚ) ≤ x' := by linarith
    exact_mod_cast this
  refine ⟨x0, hmin x hm, ⟨hp, h0, h1, q, hq, hm0⟩, ?_⟩
  rintro x' hlt ⟨-, -, -, q', hq', hm'⟩
  rw [hq] at hq'
  cases hq'
  have := hmin x' hm'
  omega

theorem crossing_of_agree {m : Mesh ℚ} (hn : NormalsAgree m) {p : Nat} (hp : p ∈ m.Triangles) :
    (crossing m p = 1 ↔ (normal (triOf (m.heap p))).X < 0) ∧ (crossing m p = -1 ↔ 0 < (normal (triOf (m.heap p))).X) := by
  obtain ⟨h1, h2⟩ := hn p hp
  rw [crossing_rat]
  unfold flatLimit at h1 h2
  rw [h1, h2]
  constructor
  · constructor
    · intro h
      split_ifs at h with a c
      · exact a
      · omega
    · intro h
      rw [if_pos h]
  · constructor
    · intro h
      split_ifs at h with a c
      · exact c
    · intro h
      rw [if_neg (by linarith), if_pos h]

/-! ## Convex solids -/

/-- **C98.** Every stored voxel of a solid (whatever the mesh: the hull of the corners) has a point of the solid within one
    voxel of its middle. -/
theorem filled_near_solid {b : BinVOX ℚ} (hV : 0 < b.VoxelsPerMM) {m : Mesh ℚ} {zi y x : Int} (h : Filled b m zi y x) :
    ∃ v, InSolid m v ∧ Around b 1 x y zi v := by
  classical
  obtain ⟨-, ⟨p, ht⟩ | ⟨-, ⟨x', p', hx', ht'⟩, x0, hx0, he, -⟩⟩ := h
  · obtain ⟨v, hv, ha⟩ := touched_near hV ht
    exact ⟨v, surface_in_solid ⟨p, ht.1, hv⟩, ha⟩
  · -- between two touched cells
    have : ∃ p, Touches b m zi y p x0 := by
      unfold Enters crossings at he
      have hpos := lt_of_le_of_lt (Nat.zero_le _) he
      obtain ⟨p, hp⟩ := List.exists_mem_of_length_pos hpos
      rw [List.mem_filter, decide_eq_true_eq] at hp
      exact ⟨p, hp.2.1.1⟩
    obtain ⟨p, ht⟩ := this
    obtain ⟨u, hu, au⟩ := touched_near hV ht
    obtain ⟨v, hv, av⟩ := touched_near hV ht'
    have su := surface_in_solid ⟨p, ht.1, hu⟩
    have sv := surface_in_solid ⟨p', ht'.1, hv⟩
    rw [around_iff hV] at au av
    obtain ⟨uz, ux, uy⟩ := au
    obtain ⟨vz, vx, vy⟩ := av
    have d1 : (0 : ℚ) < (x' : ℚ) - x0 := by
      have : (x0 : ℚ) < x' := by exact_mod_cast lt_of_lt_of_le hx0 hx'
      linarith
    have d2 : (0 : ℚ) ≤ (x : ℚ) - x0 := by
      have : (x0 : ℚ) < x := by exact_mod_cast hx0
      linarith
    have d3 : (x : ℚ) ≤ x' := by exact_mod_cast hx'
    have t0 : 0 ≤ ((x : ℚ) - x0) / (x' - x0) := div_nonneg d2 d1.le
    have t1 : ((x : ℚ) - x0) / (x' - x0) ≤ 1 := by rw [div_le_one d1]; linarith
    have te : ((x : ℚ) - x0) / (x' - x0) * (x' - x0) = x - x0 := div_mul_cancel₀ _ d1.ne'
    generalize ((x : ℚ) - x0) / (x' - x0) = t at *
    refine ⟨along u v t, solid_convex su sv t0 t1, (around_iff hV).mpr ⟨?_, ?_, ?_⟩⟩
    · show u.Z + t * (v.Z - u.Z) = _
      rw [uz, vz]; ring
    · rw [gx_along]
      have e : gx b u + t * (gx b v - gx b u) - (x + 1 / 2) = (1 - t) * (gx b u - (x0 + 1 / 2)) + t * (gx b v - (x' + 1 / 2)) := by
        have : (x : ℚ) = x0 + t * (x' - x0) := by linarith
        rw [this]; ring
      rw [e, abs_le]
      rw [abs_le] at ux vx
      have s1 : 0 ≤ 1 - t := by linarith
      have a1 := mul_nonneg s1 (by linarith : 0 ≤ gx b u - (x0 + 1 / 2) + 1)
      have a2 := mul_nonneg s1 (by linarith : 0 ≤ 1 - (gx b u - (x0 + 1 / 2)))
      have a3 := mul_nonneg t0 (by linarith : 0 ≤ gx b v - (x' + 1 / 2) + 1)
      have a4 := mul_nonneg t0 (by linarith : 0 ≤ 1 - (gx b v - (x' + 1 / 2)))
      constructor <;> linarith
    · rw [gy_along]
      have e : gy b u + t * (gy b v - gy b u) - (y + 1 / 2) = (1 - t) * (gy b u - (y + 1 / 2)) + t * (gy b v - (y + 1 / 2)) := by ring
      rw [e, abs_le]
      rw [abs_le] at uy vy
      have s1 : 0 ≤ 1 - t := by linarith
      have a1 := mul_nonneg s1 (by linarith : 0 ≤ gy b u - (y + 1 / 2) + 1)
      have a2 := mul_nonneg s1 (by linarith : 0 ≤ 1 - (gy b u - (y + 1 / 2)))
      have a3 := mul_nonneg t0 (by linarith : 0 ≤ gy b v - (y + 1 / 2) + 1)
      have a4 := mul_nonneg t0 (by linarith : 0 ≤ 1 - (gy b v - (y + 1 / 2)))
      constructor <;> linarith

/-- A triangle facing left that touches a cell of the row of a voxel deep inside touches it left of the voxel (or there). -/
theorem left_of {b : BinVOX ℚ} (hV : 0 < b.VoxelsPerMM) {m : Mesh ℚ} (hm : ConvexMesh m) {zi y x : Int}
    (hin : ∀ v, Around b 1 x y zi v → InSolid m v) {p : Nat} {xc : Int} (ht : Touches b m zi y p xc) :
    ((normal (triOf (m.heap p))).X < 0 → xc ≤ x) ∧ (0 < (normal (triOf (m.heap p))).X → x ≤ xc) := by
  obtain ⟨w, hw, aw⟩ := touched_near hV ht
  rw [around_iff hV] at aw
  obtain ⟨wz, wx, wy⟩ := aw
  have hplane := in_plane hw
  -- the point of the square at the height of `w`
  have sq : ∀ d : ℚ, |d| ≤ 1 → InSolid m ⟨b.TX + (x + 1 / 2 + d) / b.VoxelsPerMM, w.Y, w.Z⟩ := by
    intro d hd
    apply hin
    rw [around_iff hV]
    refine ⟨wz, ?_, wy⟩
    have e : gx b ⟨b.TX + ((x : ℚ) + 1 / 2 + d) / b.VoxelsPerMM, w.Y, w.Z⟩ - (x + 1 / 2) = d := by
      unfold gx
      dsimp only
      field_simp
      ring
    rw [e]
    exact hd
  have diff : ∀ d : ℚ, |d| ≤ 1 → (normal (triOf (m.heap p))).X * (b.TX + (x + 1 / 2 + d) / b.VoxelsPerMM - w.X) ≤ 0 := by
    intro d hd
    have := solid_inner hm ht.1 (sq d hd)
    unfold vdot vsub at this hplane
    dsimp only at this hplane
    linarith
  have gw : ∀ d : ℚ, b.VoxelsPerMM * (b.TX + ((x : ℚ) + 1 / 2 + d) / b.VoxelsPerMM - w.X) = x + 1 / 2 + d - gx b w := by
    intro d
    unfold gx
    field_simp
    ring
  rw [abs_le] at wx
  constructor
  · intro hn
    have h1 := diff (-1) (by norm_num)
    have h2 : 0 ≤ b.TX + ((x : ℚ) + 1 / 2 + -1) / b.VoxelsPerMM - w.X := by
      by_contra hc
      rw [not_le] at hc
      have := mul_pos_of_neg_of_neg hn hc
      linarith
    have h3 := mul_nonneg hV.le h2
    rw [gw] at h3
    have : (xc : ℚ) ≤ x := by linarith
    exact_mod_cast this
  · intro hn
    have h1 := diff 1 (by norm_num)
    have h2 : b.TX + ((x : ℚ) + 1 / 2 + 1) / b.VoxelsPerMM - w.X ≤ 0 := by
      by_contra hc
      rw [not_le] at hc
      have := mul_pos hn hc
      linarith
    have h3 := mul_nonneg hV.le (neg_nonneg.mpr h2)
    have h4 := gw 1
    have : (x : ℚ) ≤ xc := by linarith
    exact_mod_cast this

/-- **C98.** Every voxel deep enough inside a convex solid is stored: if all points of the slice within one voxel of its
    middle belong to the solid. -/
theorem deep_filled {b : BinVOX ℚ} (hV : 0 < b.VoxelsPerMM) {m : Mesh ℚ} (hm : ConvexMesh m) (hn : NormalsAgree m) {zi y x : Int}
    (hc : CleanSlice b m zi) (hx0 : 0 ≤ x) (hx1 : x < b.NX) (hy0 : 0 ≤ y) (hy1 : y < b.NY)
    (hin : ∀ v, Around b 1 x y zi v → InSolid m v) : Filled b m zi y x := by
  classical
  have hz := noCorner_of_clean hc
  set cx : ℚ := b.TX + ((x : ℚ) + 1 / 2) / b.VoxelsPerMM with hcx
  set cy : ℚ := b.TY + ((y : ℚ) + 1 / 2) / b.VoxelsPerMM with hcy
  have gpt : ∀ d d' : ℚ, |d| ≤ 1 → |d'| ≤ 1 → InSolid m ⟨cx + d / b.VoxelsPerMM, cy + d' / b.VoxelsPerMM, sliceMiddle b zi⟩ := by
    intro d d' hd hd'
    apply hin
    rw [around_iff hV]
    refine ⟨rfl, ?_, ?_⟩
    · have e : gx b ⟨cx + d / b.VoxelsPerMM, cy + d' / b.VoxelsPerMM, sliceMiddle b zi⟩ - (x + 1 / 2) = d := by
        unfold gx
        dsimp only
        rw [hcx]
        field_simp
        ring
      rw [e]; exact hd
    · have e : gy b ⟨cx + d / b.VoxelsPerMM, cy + d' / b.VoxelsPerMM, sliceMiddle b zi⟩ - (y + 1 / 2) = d' := by
        unfold gy
        dsimp only
        rw [hcy]
        field_simp
        ring
      rw [e]; exact hd'
  obtain ⟨S, s, e, hS, hpts, ring⟩ := section_ring hm hz
  have hne : ∃ i, i ∈ S := by
    obtain ⟨p, hp, hs⟩ := some_section hm hz (gpt 0 0 (by norm_num) (by norm_num)) rfl
    exact ⟨p, (hS p).mpr ⟨hp, hs⟩⟩
  have hr : 0 < 1 / b.VoxelsPerMM := one_div_pos.mpr hV
  have core : Polygon.Core S s (fun p => flatNormal (m.heap p)) (1 / b.VoxelsPerMM) (cx, cy) := by
    intro p hp
    have hpt := ((hS p).mp hp).1
    have inner : ∀ d d' : ℚ, |d| ≤ 1 → |d'| ≤ 1 → ∀ v : ℚ × ℚ, v.1 = cx + d / b.VoxelsPerMM → v.2 = cy + d' / b.VoxelsPerMM →
        Polygon.side s (fun p => flatNormal (m.heap p)) p v ≤ 0 := by
      intro d d' hd hd' v h1 h2
      unfold Polygon.side
      dsimp only
      rw [side_eq (hpts p hp).1, h1, h2]
      exact solid_inner hm hpt (gpt d d' hd hd')
    refine ⟨inner 1 0 (by norm_num) (by norm_num) _ rfl ?_, inner (-1) 0 (by norm_num) (by norm_num) _ ?_ ?_,
      inner 0 1 (by norm_num) (by norm_num) _ ?_ rfl, inner 0 (-1) (by norm_num) (by norm_num) _ ?_ ?_⟩ <;> dsimp only <;> ring
  have gyc : ∀ u : ℚ × ℚ, gy b ⟨u.1, u.2, sliceMiddle b zi⟩ - (y + 1 / 2) = b.VoxelsPerMM * (u.2 - cy) := by
    intro u
    unfold gy
    dsimp only
    rw [hcy]
    field_simp
    ring
  have gle : ∀ u : ℚ × ℚ, u.2 ≤ cy → gy b ⟨u.1, u.2, sliceMiddle b zi⟩ ≤ y + 1 / 2 := by
    intro u hu
    have := mul_nonneg hV.le (by linarith : 0 ≤ cy - u.2)
    have := gyc u
    linarith
  have gge : ∀ u : ℚ × ℚ, cy ≤ u.2 → (y : ℚ) + 1 / 2 ≤ gy b ⟨u.1, u.2, sliceMiddle b zi⟩ := by
    intro u hu
    have := mul_nonneg hV.le (by linarith : 0 ≤ u.2 - cy)
    have := gyc u
    linarith
  -- the wall on the left and the wall on the right
  obtain ⟨i, hi, ni, i1, i2⟩ := Polygon.covers_left ring hr core hne
  obtain ⟨j, hj, nj, j1, j2⟩ := Polygon.covers_right ring hr core hne
  have hit := ((hS i).mp hi).1
  have hjt := ((hS j).mp hj).1
  obtain ⟨xi, ti⟩ := row_touched hy0 hy1 hit (hc i hit) (hpts i hi).1 (hpts i hi).2 rfl rfl (gle _ i1) (gge _ i2)
  obtain ⟨xj, tj⟩ := row_touched hy0 hy1 hjt (hc j hjt) (hpts j hj).2 (hpts j hj).1 rfl rfl (gle _ j1) (gge _ j2)
  have lj := (left_of hV hm hin tj).2 nj
  refine ⟨hx1, ?_⟩
  by_cases htx : ∃ p, Touches b m zi y p x
  · exact .inl htx
  refine .inr ⟨hx0, ⟨xj, j, lj, tj⟩, ?_⟩
  -- triangles facing right touch the row only right of the voxel
  have noleave : ∀ x1 < x, crossings m.Triangles (Touches b m zi y) (crossing m) (-1) x1 = 0 := by
    intro x1 hx1
    unfold crossings
    rw [List.length_eq_zero_iff, List.filter_eq_nil_iff]
    intro p hp hd
    rw [decide_eq_true_eq] at hd
    have hp' := List.mem_dedup.mp hp
    have := (left_of hV hm hin hd.1.1).2 ((crossing_of_agree hn hp').2.mp hd.2)
    omega
  obtain ⟨x0, hx0i, hf⟩ := first_touch ti
  have hlt : x0 < x := by
    have h1 := (left_of hV hm hin hf.1).1 ni
    rcases eq_or_lt_of_le h1 with h2 | h2
    · exact absurd ⟨i, h2 ▸ hf.1⟩ htx
    · exact h2
  refine ⟨x0, hlt, ?_, ?_⟩
  · unfold Enters
    rw [noleave x0 hlt]
    unfold crossings
    apply List.length_pos_of_mem (a := i)
    rw [List.mem_filter, decide_eq_true_eq]
    exact ⟨List.mem_dedup.mpr hit, hf, (crossing_of_agree hn hit).1.mpr ni⟩
  · intro x1 _ h2 hl
    unfold Leaves at hl
    rw [noleave x1 h2] at hl
    omega

end StlDice
