import Verif.Props.VoxelSolid

/-! # Stored along rows, but not across rows (C99) -/

namespace StlDice
open Spec GoFloat BinVOX F64

/-! ## Along a row -/

/-- Away from the touched cells neighbours in a row are stored alike, whatever the mesh and the arithmetic. -/
theorem filled_step {F : Type} [GoFloat F] {b : BinVOX F} {m : Mesh F} {z y x : Int} (h0 : 0 ≤ x) (h1 : x + 1 < b.NX)
    (n0 : ¬ ∃ p, Touches b m z y p x) (n1 : ¬ ∃ p, Touches b m z y p (x + 1)) : Filled b m z y x ↔ Filled b m z y (x + 1) := by
  classical
  have none : ∀ c, crossings m.Triangles (Touches b m z y) (crossing m) c x = 0 := by
    intro c
    unfold crossings
    rw [List.length_eq_zero_iff, List.filter_eq_nil_iff]
    intro p _ hd
    rw [decide_eq_true_eq] at hd
    exact n0 ⟨p, hd.1.1⟩
  have hI : Inside m.Triangles (Touches b m z y) (crossing m) x ↔ Inside m.Triangles (Touches b m z y) (crossing m) (x + 1) := by
    unfold Inside
    constructor
    · rintro ⟨x0, hlt, he, hl⟩
      refine ⟨x0, by omega, he, ?_⟩
      intro x1 a c
      rcases eq_or_lt_of_le (show x1 ≤ x by omega) with rfl | hx
      · unfold Leaves
        rw [none, none]
        omega
      · exact hl x1 a hx
    · rintro ⟨x0, hlt, he, hl⟩
      have hne : x0 ≠ x := by
        rintro rfl
        unfold Enters at he
        rw [none, none] at he
        omega
      exact ⟨x0, by omega, he, fun x1 a c => hl x1 a (by omega)⟩
  have hT : (∃ x' p, x ≤ x' ∧ Touches b m z y p x') ↔ ∃ x' p, x + 1 ≤ x' ∧ Touches b m z y p x' := by
    constructor
    · rintro ⟨x', p, hle, ht⟩
      refine ⟨x', p, ?_, ht⟩
      rcases eq_or_lt_of_le hle with rfl | hlt
      · exact absurd ⟨p, ht⟩ n0
      · omega
    · rintro ⟨x', p, hle, ht⟩
      exact ⟨x', p, by omega, ht⟩
  unfold Filled
  dsimp only
  rw [hI, hT]
  constructor
  · rintro ⟨a, h | ⟨_, h⟩⟩
    · exact absurd h n0
    · exact ⟨h1, .inr ⟨by omega, h⟩⟩
  · rintro ⟨a, h | ⟨_, h⟩⟩
    · exact absurd h n1
    · exact ⟨by omega, .inr ⟨h0, h⟩⟩

/-- **C99.** Whatever the mesh: of two neighbours in a row without a point of the surface within one voxel of their middles,
    both are stored or neither. -/
theorem stored_along_row {b b' : BinVOX ℚ} (hV : 0 < b.VoxelsPerMM) {m : Mesh ℚ} (h : VoxelizeRun b m (.ok b')) {x y z : Int}
    (h0 : 0 ≤ x) (h1 : x + 1 < b.NX) (n0 : ∀ v, Around b 1 x y z v → ¬ OnSurface m v)
    (n1 : ∀ v, Around b 1 (x + 1) y z v → ¬ OnSurface m v) :
    b'.white.has ⟨x, y, z⟩ = true ↔ b'.white.has ⟨x + 1, y, z⟩ = true := by
  have no : ∀ xc, (∀ v, Around b 1 xc y z v → ¬ OnSurface m v) → ¬ ∃ p, Touches b m z y p xc := by
    rintro xc hn ⟨p, ht⟩
    obtain ⟨v, hv, ha⟩ := touched_near hV ht
    exact hn v ha ⟨p, ht.1, hv⟩
  rw [run_filled h, run_filled h]
  dsimp only
  rw [filled_step h0 h1 (no _ n0) (no _ n1)]

/-! ## Across rows: two closed meshes -/

/-- A triangle from its nine coordinates and its normal. -/
def tri3 (x1 y1 z1 x2 y2 z2 x3 y3 z3 : ℚ) (n : Vec F64) : Triangle F64 := ⟨vtx x1 y1 z1 n, vtx x2 y2 z2 n, vtx x3 y3 z3 n⟩

/-- A block with a slanted V-shaped notch, a prism of height 8 mm. -/
def crackTris : List (Triangle F64) := [
  tri3 (1 / 2) (1 / 2) 0 (63 / 2) (1 / 2) 0 (63 / 2) (1 / 2) 8 ⟨of 0, of (-1), of 0⟩,
  tri3 (1 / 2) (1 / 2) 0 (63 / 2) (1 / 2) 8 (1 / 2) (1 / 2) 8 ⟨of 0, of (-1), of 0⟩,
  tri3 (63 / 2) (1 / 2) 0 (63 / 2) (113 / 8) 0 (63 / 2) (113 / 8) 8 ⟨of 1, of 0, of 0⟩,
  tri3 (63 / 2) (1 / 2) 0 (63 / 2) (113 / 8) 8 (63 / 2) (1 / 2) 8 ⟨of 1, of 0, of 0⟩,
  tri3 (63 / 2) (113 / 8) 0 (199 / 8) (113 / 8) 0 (199 / 8) (113 / 8) 8 ⟨of 0, of 1, of 0⟩,
  tri3 (63 / 2) (113 / 8) 0 (199 / 8) (113 / 8) 8 (63 / 2) (113 / 8) 8 ⟨of 0, of 1, of 0⟩,
  tri3 (199 / 8) (113 / 8) 0 (71 / 8) (49 / 8) 0 (71 / 8) (49 / 8) 8 ⟨of (-229 / 512), of (229 / 256), of 0⟩,
  tri3 (199 / 8) (113 / 8) 0 (71 / 8) (49 / 8) 8 (199 / 8) (113 / 8) 8 ⟨of (-229 / 512), of (229 / 256), of 0⟩,
  tri3 (71 / 8) (49 / 8) 0 (103 / 8) (113 / 8) 0 (103 / 8) (113 / 8) 8 ⟨of (229 / 256), of (-229 / 512), of 0⟩,
  tri3 (71 / 8) (49 / 8) 0 (103 / 8) (113 / 8) 8 (71 / 8) (49 / 8) 8 ⟨of (229 / 256), of (-229 / 512), of 0⟩,
  tri3 (103 / 8) (113 / 8) 0 (1 / 2) (113 / 8) 0 (1 / 2) (113 / 8) 8 ⟨of 0, of 1, of 0⟩,
  tri3 (103 / 8) (113 / 8) 0 (1 / 2) (113 / 8) 8 (103 / 8) (113 / 8) 8 ⟨of 0, of 1, of 0⟩,
  tri3 (1 / 2) (113 / 8) 0 (1 / 2) (1 / 2) 0 (1 / 2) (1 / 2) 8 ⟨of (-1), of 0, of 0⟩,
  tri3 (1 / 2) (113 / 8) 0 (1 / 2) (1 / 2) 8 (1 / 2) (113 / 8) 8 ⟨of (-1), of 0, of 0⟩,
  tri3 (1 / 2) (1 / 2) 8 (63 / 2) (1 / 2) 8 (63 / 2) (113 / 8) 8 ⟨of 0, of 0, of 1⟩,
  tri3 (1 / 2) (1 / 2) 0 (63 / 2) (113 / 8) 0 (63 / 2) (1 / 2) 0 ⟨of 0, of 0, of (-1)⟩,
  tri3 (1 / 2) (1 / 2) 8 (63 / 2) (113 / 8) 8 (199 / 8) (113 / 8) 8 ⟨of 0, of 0, of 1⟩,
  tri3 (1 / 2) (1 / 2) 0 (199 / 8) (113 / 8) 0 (63 / 2) (113 / 8) 0 ⟨of 0, of 0, of (-1)⟩,
  tri3 (1 / 2) (1 / 2) 8 (199 / 8) (113 / 8) 8 (71 / 8) (49 / 8) 8 ⟨of 0, of 0, of 1⟩,
  tri3 (1 / 2) (1 / 2) 0 (71 / 8) (49 / 8) 0 (199 / 8) (113 / 8) 0 ⟨of 0, of 0, of (-1)⟩,
  tri3 (1 / 2) (113 / 8) 8 (1 / 2) (1 / 2) 8 (71 / 8) (49 / 8) 8 ⟨of 0, of 0, of 1⟩,
  tri3 (1 / 2) (113 / 8) 0 (71 / 8) (49 / 8) 0 (1 / 2) (1 / 2) 0 ⟨of 0, of 0, of (-1)⟩,
  tri3 (71 / 8) (49 / 8) 8 (103 / 8) (113 / 8) 8 (1 / 2) (113 / 8) 8 ⟨of 0, of 0, of 1⟩,
  tri3 (71 / 8) (49 / 8) 0 (1 / 2) (113 / 8) 0 (103 / 8) (113 / 8) 0 ⟨of 0, of 0, of (-1)⟩]

/-- A direction and a bound separating each triangle from the square. -/
def crackSep : List (ℚ × ℚ × ℚ × ℚ) := [
  (0, -1, 0, -7 / 2),
  (0, -1, 0, -7 / 2),
  (1, 0, 0, 47 / 2),
  (1, 0, 0, 47 / 2),
  (1, 0, 0, 47 / 2),
  (1, 0, 0, 47 / 2),
  (-64, 128, 0, 96),
  (-64, 128, 0, 96),
  (-1, 0, 0, -35 / 2),
  (-1, 0, 0, -35 / 2),
  (-1, 0, 0, -35 / 2),
  (-1, 0, 0, -35 / 2),
  (-1, 0, 0, -35 / 2),
  (-1, 0, 0, -35 / 2),
  (0, 0, 1, 1 / 2),
  (0, 0, -1, -1 / 2),
  (0, 0, 1, 1 / 2),
  (0, 0, -1, -1 / 2),
  (0, 0, 1, 1 / 2),
  (0, 0, -1, -1 / 2),
  (-1, 0, 0, -35 / 2),
  (-1, 0, 0, -35 / 2),
  (-1, 0, 0, -35 / 2),
  (-1, 0, 0, -35 / 2)]

/-- A wedge on a column, a prism of height 8 mm. -/
def hookTris : List (Triangle F64) := [
  tri3 (71 / 8) (49 / 8) 0 (199 / 8) (113 / 8) 0 (199 / 8) (113 / 8) 8 ⟨of (229 / 512), of (-229 / 256), of 0⟩,
  tri3 (71 / 8) (49 / 8) 0 (199 / 8) (113 / 8) 8 (71 / 8) (49 / 8) 8 ⟨of (229 / 512), of (-229 / 256), of 0⟩,
  tri3 (199 / 8) (113 / 8) 0 (55 / 2) (113 / 8) 0 (55 / 2) (113 / 8) 8 ⟨of 0, of (-1), of 0⟩,
  tri3 (199 / 8) (113 / 8) 0 (55 / 2) (113 / 8) 8 (199 / 8) (113 / 8) 8 ⟨of 0, of (-1), of 0⟩,
  tri3 (55 / 2) (113 / 8) 0 (55 / 2) (1 / 2) 0 (55 / 2) (1 / 2) 8 ⟨of (-1), of 0, of 0⟩,
  tri3 (55 / 2) (113 / 8) 0 (55 / 2) (1 / 2) 8 (55 / 2) (113 / 8) 8 ⟨of (-1), of 0, of 0⟩,
  tri3 (55 / 2) (1 / 2) 0 (63 / 2) (1 / 2) 0 (63 / 2) (1 / 2) 8 ⟨of 0, of (-1), of 0⟩,
  tri3 (55 / 2) (1 / 2) 0 (63 / 2) (1 / 2) 8 (55 / 2) (1 / 2) 8 ⟨of 0, of (-1), of 0⟩,
  tri3 (63 / 2) (1 / 2) 0 (63 / 2) (33 / 2) 0 (63 / 2) (33 / 2) 8 ⟨of 1, of 0, of 0⟩,
  tri3 (63 / 2) (1 / 2) 0 (63 / 2) (33 / 2) 8 (63 / 2) (1 / 2) 8 ⟨of 1, of 0, of 0⟩,
  tri3 (63 / 2) (33 / 2) 0 (103 / 8) (33 / 2) 0 (103 / 8) (33 / 2) 8 ⟨of 0, of 1, of 0⟩,
  tri3 (63 / 2) (33 / 2) 0 (103 / 8) (33 / 2) 8 (63 / 2) (33 / 2) 8 ⟨of 0, of 1, of 0⟩,
  tri3 (103 / 8) (33 / 2) 0 (103 / 8) (113 / 8) 0 (103 / 8) (113 / 8) 8 ⟨of (-1), of 0, of 0⟩,
  tri3 (103 / 8) (33 / 2) 0 (103 / 8) (113 / 8) 8 (103 / 8) (33 / 2) 8 ⟨of (-1), of 0, of 0⟩,
  tri3 (103 / 8) (113 / 8) 0 (71 / 8) (49 / 8) 0 (71 / 8) (49 / 8) 8 ⟨of (-229 / 256), of (229 / 512), of 0⟩,
  tri3 (103 / 8) (113 / 8) 0 (71 / 8) (49 / 8) 8 (103 / 8) (113 / 8) 8 ⟨of (-229 / 256), of (229 / 512), of 0⟩,
  tri3 (103 / 8) (113 / 8) 8 (71 / 8) (49 / 8) 8 (199 / 8) (113 / 8) 8 ⟨of 0, of 0, of 1⟩,
  tri3 (103 / 8) (113 / 8) 0 (199 / 8) (113 / 8) 0 (71 / 8) (49 / 8) 0 ⟨of 0, of 0, of (-1)⟩,
  tri3 (55 / 2) (113 / 8) 8 (55 / 2) (1 / 2) 8 (63 / 2) (1 / 2) 8 ⟨of 0, of 0, of 1⟩,
  tri3 (55 / 2) (113 / 8) 0 (63 / 2) (1 / 2) 0 (55 / 2) (1 / 2) 0 ⟨of 0, of 0, of (-1)⟩,
  tri3 (55 / 2) (113 / 8) 8 (63 / 2) (1 / 2) 8 (63 / 2) (33 / 2) 8 ⟨of 0, of 0, of 1⟩,
  tri3 (55 / 2) (113 / 8) 0 (63 / 2) (33 / 2) 0 (63 / 2) (1 / 2) 0 ⟨of 0, of 0, of (-1)⟩,
  tri3 (199 / 8) (113 / 8) 8 (55 / 2) (113 / 8) 8 (63 / 2) (33 / 2) 8 ⟨of 0, of 0, of 1⟩,
  tri3 (199 / 8) (113 / 8) 0 (63 / 2) (33 / 2) 0 (55 / 2) (113 / 8) 0 ⟨of 0, of 0, of (-1)⟩,
  tri3 (103 / 8) (113 / 8) 8 (199 / 8) (113 / 8) 8 (63 / 2) (33 / 2) 8 ⟨of 0, of 0, of 1⟩,
  tri3 (103 / 8) (113 / 8) 0 (63 / 2) (33 / 2) 0 (199 / 8) (113 / 8) 0 ⟨of 0, of 0, of (-1)⟩,
  tri3 (63 / 2) (33 / 2) 8 (103 / 8) (33 / 2) 8 (103 / 8) (113 / 8) 8 ⟨of 0, of 0, of 1⟩,
  tri3 (63 / 2) (33 / 2) 0 (103 / 8) (113 / 8) 0 (103 / 8) (33 / 2) 0 ⟨of 0, of 0, of (-1)⟩]

/-- A direction and a bound separating each triangle from the square. -/
def hookSep : List (ℚ × ℚ × ℚ × ℚ) := [
  (-64, 128, 0, 96),
  (-64, 128, 0, 96),
  (1, 0, 0, 47 / 2),
  (1, 0, 0, 47 / 2),
  (1, 0, 0, 47 / 2),
  (1, 0, 0, 47 / 2),
  (1, 0, 0, 47 / 2),
  (1, 0, 0, 47 / 2),
  (1, 0, 0, 47 / 2),
  (1, 0, 0, 47 / 2),
  (0, 1, 0, 19 / 2),
  (0, 1, 0, 19 / 2),
  (-1, 0, 0, -35 / 2),
  (-1, 0, 0, -35 / 2),
  (-1, 0, 0, -35 / 2),
  (-1, 0, 0, -35 / 2),
  (0, 0, 1, 15 / 2),
  (0, 0, -1, -15 / 2),
  (1, 0, 0, 47 / 2),
  (1, 0, 0, 47 / 2),
  (1, 0, 0, 47 / 2),
  (1, 0, 0, 47 / 2),
  (1, 0, 0, 47 / 2),
  (1, 0, 0, 47 / 2),
  (0, 1, 0, 19 / 2),
  (0, 1, 0, 19 / 2),
  (0, 1, 0, 19 / 2),
  (0, 1, 0, 19 / 2)]

def crackMesh : Mesh F64 where
  heap i := crackTris.getD i (tri3 0 0 0 0 0 0 0 0 0 ⟨of 0, of 0, of 0⟩)
  Triangles := List.range 24

def hookMesh : Mesh F64 where
  heap i := hookTris.getD i (tri3 0 0 0 0 0 0 0 0 0 ⟨of 0, of 0, of 0⟩)
  Triangles := List.range 28

/-- 32 x 18 x 8 voxels of 1 mm. -/
def prismGrid : BinVOX F64 := BinVOX.New 32 18 8 (ofInt 0) (ofInt 0) (ofInt 0) (ofInt 32) false

/-- Each triangle of the mesh lies beyond a plane that the square around the voxel does not reach. -/
def Separated (m : Mesh ℚ) (sep : List (ℚ × ℚ × ℚ × ℚ)) (cx cy cz r : ℚ) : Prop :=
  ∀ p ∈ m.Triangles, ∃ g ∈ sep,
    (g.2.2.2 < g.1 * (m.heap p).V1.Position.X + g.2.1 * (m.heap p).V1.Position.Y + g.2.2.1 * (m.heap p).V1.Position.Z ∧
     g.2.2.2 < g.1 * (m.heap p).V2.Position.X + g.2.1 * (m.heap p).V2.Position.Y + g.2.2.1 * (m.heap p).V2.Position.Z ∧
     g.2.2.2 < g.1 * (m.heap p).V3.Position.X + g.2.1 * (m.heap p).V3.Position.Y + g.2.2.1 * (m.heap p).V3.Position.Z) ∧
    g.1 * cx + |g.1| * r + g.2.1 * cy + |g.2.1| * r + g.2.2.1 * cz ≤ g.2.2.2

instance (m : Mesh ℚ) (sep : List (ℚ × ℚ × ℚ × ℚ)) (cx cy cz r : ℚ) : Decidable (Separated m sep cx cy cz r) := by
  unfold Separated; infer_instance

theorem mul_le_abs {g d r : ℚ} (h : |d| ≤ r) : g * d ≤ |g| * r := by
  calc g * d ≤ |g * d| := le_abs_self _
    _ = |g| * |d| := abs_mul _ _
    _ ≤ |g| * r := mul_le_mul_of_nonneg_left h (abs_nonneg _)

theorem separated_free {m : Mesh ℚ} {sep : List (ℚ × ℚ × ℚ × ℚ)} {b : BinVOX ℚ} (hV : b.VoxelsPerMM = 1) (tx : b.TX = 0) (ty : b.TY = 0)
    {x y z : Int} {r : ℚ} (h : Separated m sep (x + 1 / 2) (y + 1 / 2) (sliceMiddle b z) r) (v : Vec ℚ) (hv : Around b r x y z v) :
    ¬ OnSurface m v := by
  rintro ⟨p, hp, i, j, k, hi, hj, hk, hs, hx, hy, hz⟩
  obtain ⟨g, -, ⟨h1, h2, h3⟩, hq⟩ := h p hp
  rw [around_iff (by rw [hV]; exact zero_lt_one)] at hv
  obtain ⟨vz, vx, vy⟩ := hv
  unfold gx at vx
  unfold gy at vy
  rw [hV, tx] at vx
  rw [hV, ty] at vy
  have e1 := mul_le_abs (g := g.1) vx
  have e2 := mul_le_abs (g := g.2.1) vy
  have up : g.1 * v.X + g.2.1 * v.Y + g.2.2.1 * v.Z ≤ g.2.2.2 := by
    rw [vz]
    linarith
  have s1 := mul_nonneg hi (sub_nonneg.mpr h1.le)
  have s2 := mul_nonneg hj (sub_nonneg.mpr h2.le)
  have s3 := mul_nonneg hk (sub_nonneg.mpr h3.le)
  -- some weight is positive
  have pos : 0 < i ∨ 0 < j ∨ 0 < k := by
    by_contra hc
    push Not at hc
    linarith [hc.1, hc.2.1, hc.2.2]
  have e3 : g.1 * v.X + g.2.1 * v.Y + g.2.2.1 * v.Z - g.2.2.2 =
      i * (g.1 * (m.heap p).V1.Position.X + g.2.1 * (m.heap p).V1.Position.Y + g.2.2.1 * (m.heap p).V1.Position.Z - g.2.2.2) +
      j * (g.1 * (m.heap p).V2.Position.X + g.2.1 * (m.heap p).V2.Position.Y + g.2.2.1 * (m.heap p).V2.Position.Z - g.2.2.2) +
      k * (g.1 * (m.heap p).V3.Position.X + g.2.1 * (m.heap p).V3.Position.Y + g.2.2.1 * (m.heap p).V3.Position.Z - g.2.2.2) := by
    rw [hx, hy, hz]
    linear_combination g.2.2.2 * hs
  rcases pos with hpos | hpos | hpos
  · have := mul_pos hpos (sub_pos.mpr h1)
    linarith
  · have := mul_pos hpos (sub_pos.mpr h2)
    linarith
  · have := mul_pos hpos (sub_pos.mpr h3)
    linarith

instance (t : Triangle ℚ) (z : ℚ) : Decidable (CleanCut t z) := by unfold CleanCut; infer_instance

theorem prismGrid_run (m : Mesh F64) : ∃ out, VoxelizeRun prismGrid m (.ok out) := by
  obtain ⟨out, h⟩ := (voxelize_defined prismGrid m).1
  obtain ⟨b', hb, _⟩ := voxelize_exact _ _ (by decide) _ h
  exact ⟨b', hb ▸ h⟩

theorem prism_row {m : Mesh F64} {out : BinVOX F64} (h : VoxelizeRun prismGrid m (.ok out)) (k : Key) (hz : 0 ≤ k.Z ∧ k.Z < 8) :
    out.white.has k = true ↔ ∃ r ∈ sliceRows prismGrid m k.Z, k ∈ r := by
  rw [run_filled h, sliceRows_mem]
  constructor
  · rintro ⟨-, -, hf⟩
    exact ⟨rfl, hf⟩
  · rintro ⟨-, hf⟩
    exact ⟨hz.1, hz.2, hf⟩

/-- **C99.** Across rows it fails in the solid: the notched block is closed, its normals are right and every slice cuts it
    cleanly, but in float64 voxel `(20, 6, 0)`, which has no point of the surface within three voxels, is not stored although
    its neighbour `(20, 5, 0)` is. -/
theorem hole_in_closed_mesh {out : BinVOX F64} (h : VoxelizeRun prismGrid crackMesh (.ok out)) :
    Closed (crackMesh.Triangles.map fun p => triOf ((exactMesh crackMesh).heap p)) ∧ NormalsAgree (exactMesh crackMesh) ∧
    (∀ z : Int, 0 ≤ z → z < 8 → CleanSlice (exactModel prismGrid) (exactMesh crackMesh) z) ∧
    (∀ v, Around (exactModel prismGrid) 3 20 6 0 v → ¬ OnSurface (exactMesh crackMesh) v) ∧
    out.white.has ⟨20, 5, 0⟩ = true ∧ out.white.has ⟨20, 6, 0⟩ = false := by
  refine ⟨(closed_iff_perm _).mpr (by decide +kernel), by unfold NormalsAgree; decide +kernel, ?_, ?_, ?_, ?_⟩
  · intro z z0 z1
    have : ∀ z ∈ intRange 0 8, ∀ p ∈ (exactMesh crackMesh).Triangles, CleanCut ((exactMesh crackMesh).heap p) (sliceMiddle (exactModel prismGrid) z) := by
      decide +kernel
    exact fun p hp => this z ((mem_intRange _ _ _).mpr ⟨z0, by omega⟩) p hp
  · exact fun v hv => separated_free (sep := crackSep) (by decide +kernel) (by decide +kernel) (by decide +kernel) (by decide +kernel) v hv
  · rw [prism_row h _ (by decide)]
    decide +kernel
  · rw [Bool.eq_false_iff, Ne, prism_row h _ (by decide)]
    decide +kernel

/-- **C99.** And outside of the solid: for the wedge on a column, voxel `(20, 6, 7)` is stored although it has no point of the
    surface within three voxels and its neighbour `(20, 5, 7)` is not stored. -/
theorem phantom_of_closed_mesh {out : BinVOX F64} (h : VoxelizeRun prismGrid hookMesh (.ok out)) :
    Closed (hookMesh.Triangles.map fun p => triOf ((exactMesh hookMesh).heap p)) ∧ NormalsAgree (exactMesh hookMesh) ∧
    (∀ z : Int, 0 ≤ z → z < 8 → CleanSlice (exactModel prismGrid) (exactMesh hookMesh) z) ∧
    (∀ v, Around (exactModel prismGrid) 3 20 6 7 v → ¬ OnSurface (exactMesh hookMesh) v) ∧
    out.white.has ⟨20, 5, 7⟩ = false ∧ out.white.has ⟨20, 6, 7⟩ = true := by
  refine ⟨(closed_iff_perm _).mpr (by decide +kernel), by unfold NormalsAgree; decide +kernel, ?_, ?_, ?_, ?_⟩
  · intro z z0 z1
    have : ∀ z ∈ intRange 0 8, ∀ p ∈ (exactMesh hookMesh).Triangles, CleanCut ((exactMesh hookMesh).heap p) (sliceMiddle (exactModel prismGrid) z) := by
      decide +kernel
    exact fun p hp => this z ((mem_intRange _ _ _).mpr ⟨z0, by omega⟩) p hp
  · exact fun v hv => separated_free (sep := hookSep) (by decide +kernel) (by decide +kernel) (by decide +kernel) (by decide +kernel) v hv
  · rw [Bool.eq_false_iff, Ne, prism_row h _ (by decide)]
    decide +kernel
  · rw [prism_row h _ (by decide)]
    decide +kernel

/-- **C99.** So it is not true of all closed meshes that neighbours without surface near them are stored alike. -/
theorem stored_across_rows_false :
    ¬ ∀ (b out : BinVOX F64) (m : Mesh F64), VoxelizeRun b m (.ok out) →
      Closed (m.Triangles.map fun p => triOf ((exactMesh m).heap p)) → NormalsAgree (exactMesh m) →
      (∀ z : Int, 0 ≤ z → z < b.NZ → CleanSlice (exactModel b) (exactMesh m) z) →
      ∀ x y z : Int, InDims b.NX b.NY b.NZ ⟨x, y, z⟩ → InDims b.NX b.NY b.NZ ⟨x, y + 1, z⟩ →
      (∀ v, Around (exactModel b) 2 x (y + 1) z v → ¬ OnSurface (exactMesh m) v) →
      (out.white.has ⟨x, y, z⟩ = true ↔ out.white.has ⟨x, y + 1, z⟩ = true) := by
  intro hall
  obtain ⟨out, h⟩ := prismGrid_run crackMesh
  obtain ⟨c1, c2, c3, c4, c5, c6⟩ := hole_in_closed_mesh h
  have := (hall prismGrid out crackMesh h c1 c2 c3 20 5 0 (by unfold InDims; decide) (by unfold InDims; decide) (by
    intro v hv
    apply c4
    obtain ⟨a, c, d⟩ := hv
    have e : (2 : ℚ) / (exactModel prismGrid).VoxelsPerMM ≤ 3 / (exactModel prismGrid).VoxelsPerMM := by decide +kernel
    exact ⟨a, c.trans e, d.trans e⟩)).mp c5
  rw [show (5 : Int) + 1 = 6 from rfl, c6] at this
  cases this

/-- The two meshes can be voxelized; along row 6 of the block the voxels 20 and 21 are alike. -/
example : (∃ out, VoxelizeRun prismGrid crackMesh (.ok out)) ∧ (∃ out, VoxelizeRun prismGrid hookMesh (.ok out)) ∧
    ∃ out, VoxelizeRun (exactModel prismGrid) (exactMesh crackMesh) (.ok out) ∧
      (out.white.has ⟨20, 6, 0⟩ = true ↔ out.white.has ⟨20 + 1, 6, 0⟩ = true) := by
  refine ⟨prismGrid_run _, prismGrid_run _, ?_⟩
  obtain ⟨o, ho⟩ := (voxelize_defined (exactModel prismGrid) (exactMesh crackMesh)).1
  obtain ⟨out, rfl, -⟩ := voxelize_exact _ _ (by decide) _ ho
  have free := separated_free (b := exactModel prismGrid) (m := exactMesh crackMesh) (x := 20) (y := 6) (z := 0) (r := 3) (sep := crackSep)
    (by decide +kernel) (by decide +kernel) (by decide +kernel) (by decide +kernel)
  have hV : 0 < (exactModel prismGrid).VoxelsPerMM := by decide +kernel
  refine ⟨out, ho, stored_along_row hV ho (by decide) (by decide) ?_ ?_⟩
  all_goals
    intro v hv
    apply free
    rw [around_iff hV] at hv ⊢
    obtain ⟨a, c, d⟩ := hv
    rw [abs_le] at c d ⊢
    rw [abs_le]
    push_cast at c d ⊢
    exact ⟨a, ⟨by linarith, by linarith⟩, by linarith, by linarith⟩

end StlDice
