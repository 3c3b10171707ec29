import Verif.Spec.Accuracy
import Mathlib.Logic.Relation

/-! # Convex solids

A solid given by its surface mesh, as a set of points in space. -/

namespace StlDice.Spec
open BinVOX

/-- The corners of a triangle, without its normals. -/
def triOf (t : Triangle ℚ) : Tri (Vec ℚ) := ⟨t.V1.Position, t.V2.Position, t.V3.Position⟩

/-- `v` is a corner of the triangle. -/
def CornerOf (t : Triangle ℚ) (v : Vec ℚ) : Prop := v = t.V1.Position ∨ v = t.V2.Position ∨ v = t.V3.Position

/-- `v` is a corner of a triangle of the mesh. -/
def Corner (m : Mesh ℚ) (v : Vec ℚ) : Prop := ∃ p ∈ m.Triangles, CornerOf (m.heap p) v

/-- `v` is a point of the solid: a weighted mean of corners of the mesh. -/
def InSolid (m : Mesh ℚ) (v : Vec ℚ) : Prop :=
  ∃ l : List (ℚ × Vec ℚ), (∀ e ∈ l, 0 ≤ e.1 ∧ Corner m e.2) ∧ (l.map fun e => e.1).sum = 1 ∧
    v.X = (l.map fun e => e.1 * e.2.X).sum ∧ v.Y = (l.map fun e => e.1 * e.2.Y).sum ∧
    v.Z = (l.map fun e => e.1 * e.2.Z).sum

/-- The mesh is the surface of a convex solid: it is closed, no triangle is degenerate, each triangle has all corners of
    the mesh on its inner side, and the mesh is in one piece. -/
structure ConvexMesh (m : Mesh ℚ) : Prop where
  closed : Closed (m.Triangles.map fun p => triOf (m.heap p))
  proper : ∀ p ∈ m.Triangles, normal (triOf (m.heap p)) ≠ ⟨0, 0, 0⟩
  convex : ∀ p ∈ m.Triangles, ∀ v, Corner m v → vdot (normal (triOf (m.heap p))) (vsub v (m.heap p).V1.Position) ≤ 0
  connected : ∀ u v, Corner m u → Corner m v →
    Relation.ReflTransGen (fun u v => ∃ p ∈ m.Triangles, CornerOf (m.heap p) u ∧ CornerOf (m.heap p) v) u v

/-- The normals stored with the triangles point to the same side, left or right, as the triangles do (and are not within
    `10^-9` of neither if the triangle is not parallel to the x axis). -/
def NormalsAgree (m : Mesh ℚ) : Prop :=
  ∀ p ∈ m.Triangles, ((normal (triOf (m.heap p))).X < 0 ↔ (m.heap p).V1.Normal.X < -flatLimit) ∧
    (0 < (normal (triOf (m.heap p))).X ↔ flatLimit < (m.heap p).V1.Normal.X)

/-- Slice `z` of the region cuts the mesh cleanly: it meets no corner, and no nearly horizontal edge. -/
def CleanSlice (b : BinVOX ℚ) (m : Mesh ℚ) (z : Int) : Prop := ∀ p ∈ m.Triangles, CleanCut (m.heap p) (sliceMiddle b z)

end StlDice.Spec
