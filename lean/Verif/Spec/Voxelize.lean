import Verif.Model.Voxelize

/-!
# What Voxelize should store

A row of a slice is described by which triangles touch which cell; from that the filled cells
are defined without any of the program's bookkeeping (shell map, row bounds, seen set, loop).
-/

namespace StlDice.Spec
open Classical

/-- The cell `(x, y)` of slice `zi` is touched by triangle `p` of the mesh: the line rasterised
    between the two points where `p` meets the slice plane contains the cell, and the row is one of
    the requested rows. -/
def Touches {F : Type} [GoFloat F] (b : BinVOX F) (m : Mesh F) (zi y : Int) (p : Nat) (x : Int) :
    Prop :=
  p ∈ m.Triangles ∧ 0 ≤ y ∧ y < b.NY ∧
  ∃ q, intersectTriZPlane p (m.heap p) (sliceHeight b zi) = some q ∧
    (x, y) ∈ pairPoints b b.VoxelsPerMM q

/-- `x` is the leftmost cell of the row that triangle `p` touches. -/
def FirstTouch (T : Nat → Int → Prop) (p : Nat) (x : Int) : Prop :=
  T p x ∧ ∀ x' < x, ¬ T p x'

/-- The number of triangles of the list that are first touched at `x` and have crossing kind `c`
    (1 entering, -1 leaving); a triangle listed twice counts once. -/
noncomputable def crossings (tris : List Nat) (T : Nat → Int → Prop) (kind : Nat → Int) (c x : Int) :
    Nat :=
  (tris.dedup.filter fun p => decide (FirstTouch T p x ∧ kind p = c)).length

/-- The cell is decided as an entry to the solid. -/
def Enters (tris : List Nat) (T : Nat → Int → Prop) (kind : Nat → Int) (x : Int) : Prop :=
  crossings tris T kind (-1) x < crossings tris T kind 1 x

/-- The cell is decided as an exit of the solid. -/
def Leaves (tris : List Nat) (T : Nat → Int → Prop) (kind : Nat → Int) (x : Int) : Prop :=
  crossings tris T kind 1 x < crossings tris T kind (-1) x

/-- The nearest decided cell left of `x` is an entry. -/
def Inside (tris : List Nat) (T : Nat → Int → Prop) (kind : Nat → Int) (x : Int) : Prop :=
  ∃ x0 < x, Enters tris T kind x0 ∧ ∀ x1, x0 < x1 → x1 < x → ¬ Leaves tris T kind x1

/-- The cells of row `y` of slice `zi` that should be stored. -/
def Filled {F : Type} [GoFloat F] (b : BinVOX F) (m : Mesh F) (zi y x : Int) : Prop :=
  let T := Touches b m zi y
  x < b.NX ∧ ((∃ p, T p x) ∨
    (0 ≤ x ∧ (∃ x' p, x ≤ x' ∧ T p x') ∧ Inside m.Triangles T (crossing m) x))

end StlDice.Spec
