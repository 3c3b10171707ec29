import Verif.Model.Manifold

/-!
# The repository's own test of `ManifoldMesh`, run on the model

`TestManifoldMesh`, binvox/manifold_test.go: each case sorts the triangles with `TriangleLess` and
compares them with the expected list.  Generated from the test file; checked by the kernel.  These
are tests of the model against the expectations of the code's author, not properties.
-/

namespace StlDice
namespace Validate
open Manifold

/-- Insertion into a list sorted by `triangleLess`. -/
def insertTri (t : Tri (BinVOX.Vec ℚ)) : List (Tri (BinVOX.Vec ℚ)) → List (Tri (BinVOX.Vec ℚ))
  | [] => [t]
  | u :: us => if triangleLess u t then u :: insertTri t us else t :: u :: us

/-- `sort.Slice(got.Triangles, TriangleLess(got.Triangles))`, binvox/manifold_test.go:1742. -/
def sortTris (l : List (Tri (BinVOX.Vec ℚ))) : List (Tri (BinVOX.Vec ℚ)) := l.foldr insertTri []

/-- The model of the test: no dimensions, scale 0 (one voxel per millimetre). -/
def testModel (ks : List Key) : BinVOX ℚ where
  NX := 0
  NY := 0
  NZ := 0
  TX := 0
  TY := 0
  TZ := 0
  Scale := 0
  WhiteVoxels := some (ks.map fun k => (k, ()))
  ColorVoxels := none

/-- `ManifoldMesh` with the maps visited in the order of the list, then sorted. -/
def sortedMesh (ks : List Key) : List (Tri (BinVOX.Vec ℚ)) :=
  sortTris ((gridOf ks).flatMap (cellTris (testModel ks)))

/-- A triangle of the test, coordinates doubled. -/
def tt (a b c d e f g h i : Int) : Tri (BinVOX.Vec ℚ) :=
  ⟨⟨a / 2, b / 2, c / 2⟩, ⟨d / 2, e / 2, f / 2⟩, ⟨g / 2, h / 2, i / 2⟩⟩

/-- Case 1 of `TestManifoldMesh`. -/
def keys1 : List Key := [⟨0, 0, 0⟩]

/-- Expected triangles of case 1. -/
def want1 : List (Tri (BinVOX.Vec ℚ)) := [
  tt 0 0 0 0 1 0 1 1 0,
  tt 0 0 0 1 1 0 1 0 0,
  tt 0 0 0 0 0 1 0 1 1,
  tt 0 0 0 0 1 1 0 1 0,
  tt 2 0 0 1 0 0 1 1 0,
  tt 2 0 0 1 1 0 2 1 0,
  tt 2 0 0 1 0 1 1 0 0,
  tt 2 0 0 2 0 1 1 0 1,
  tt 0 2 0 1 1 0 0 1 0,
  tt 0 2 0 1 2 0 1 1 0,
  tt 0 2 0 0 2 1 1 2 1,
  tt 0 2 0 1 2 1 1 2 0,
  tt 2 2 0 1 1 0 1 2 0,
  tt 2 2 0 2 1 0 1 1 0,
  tt 2 2 0 2 1 1 2 1 0,
  tt 2 2 0 2 2 1 2 1 1,
  tt 1 0 1 0 0 0 1 0 0,
  tt 1 0 1 0 0 1 0 0 0,
  tt 1 0 1 2 0 1 2 0 2,
  tt 1 0 1 2 0 2 1 0 2,
  tt 0 1 1 0 2 0 0 1 0,
  tt 0 1 1 0 0 1 0 0 2,
  tt 0 1 1 0 2 1 0 2 0,
  tt 0 1 1 0 0 2 0 1 2,
  tt 2 1 1 2 0 0 2 1 0,
  tt 2 1 1 2 0 1 2 0 0,
  tt 2 1 1 2 2 1 2 2 2,
  tt 2 1 1 2 2 2 2 1 2,
  tt 1 2 1 2 2 0 1 2 0,
  tt 1 2 1 0 2 1 0 2 2,
  tt 1 2 1 2 2 1 2 2 0,
  tt 1 2 1 0 2 2 1 2 2,
  tt 0 0 2 0 0 1 1 0 1,
  tt 0 0 2 1 0 1 1 0 2,
  tt 0 0 2 1 0 2 1 1 2,
  tt 0 0 2 1 1 2 0 1 2,
  tt 2 0 2 2 0 1 2 1 1,
  tt 2 0 2 2 1 1 2 1 2,
  tt 2 0 2 1 1 2 1 0 2,
  tt 2 0 2 2 1 2 1 1 2,
  tt 0 2 2 0 1 1 0 1 2,
  tt 0 2 2 0 2 1 0 1 1,
  tt 0 2 2 0 1 2 1 1 2,
  tt 0 2 2 1 1 2 1 2 2,
  tt 2 2 2 1 2 1 1 2 2,
  tt 2 2 2 2 2 1 1 2 1,
  tt 2 2 2 1 1 2 2 1 2,
  tt 2 2 2 1 2 2 1 1 2]

example : sortedMesh keys1 = want1 := by decide +kernel

/-- Case 2 of `TestManifoldMesh`. -/
def keys2 : List Key := [⟨0, 0, 0⟩, ⟨0, 0, 1⟩, ⟨0, 0, -1⟩, ⟨-1, 0, 0⟩, ⟨1, 0, 0⟩, ⟨0, -1, 0⟩, ⟨0, 1, 0⟩]

/-- Expected triangles of case 2. -/
def want2 : List (Tri (BinVOX.Vec ℚ)) := [
  tt 0 0 (-2) 0 1 (-2) 1 1 (-2),
  tt 0 0 (-2) 1 1 (-2) 1 0 (-2),
  tt 0 0 (-2) 0 0 (-1) 0 1 (-1),
  tt 0 0 (-2) 0 1 (-1) 0 1 (-2),
  tt 2 0 (-2) 1 0 (-2) 1 1 (-2),
  tt 2 0 (-2) 1 1 (-2) 2 1 (-2),
  tt 2 0 (-2) 1 0 (-1) 1 0 (-2),
  tt 2 0 (-2) 2 0 (-1) 1 0 (-1),
  tt 0 2 (-2) 1 1 (-2) 0 1 (-2),
  tt 0 2 (-2) 1 2 (-2) 1 1 (-2),
  tt 0 2 (-2) 0 2 (-1) 1 2 (-1),
  tt 0 2 (-2) 1 2 (-1) 1 2 (-2),
  tt 2 2 (-2) 1 1 (-2) 1 2 (-2),
  tt 2 2 (-2) 2 1 (-2) 1 1 (-2),
  tt 2 2 (-2) 2 1 (-1) 2 1 (-2),
  tt 2 2 (-2) 2 2 (-1) 2 1 (-1),
  tt 1 0 (-1) 0 0 (-2) 1 0 (-2),
  tt 1 0 (-1) 0 0 (-1) 0 0 (-2),
  tt 1 0 (-1) 0 0 0 0 0 (-1),
  tt 1 0 (-1) 1 0 0 0 0 0,
  tt 0 1 (-1) 0 2 (-2) 0 1 (-2),
  tt 0 1 (-1) 0 2 (-1) 0 2 (-2),
  tt 0 1 (-1) 0 1 0 0 2 0,
  tt 0 1 (-1) 0 2 0 0 2 (-1),
  tt 2 1 (-1) 2 0 (-2) 2 1 (-2),
  tt 2 1 (-1) 2 0 (-1) 2 0 (-2),
  tt 2 1 (-1) 2 0 0 2 0 (-1),
  tt 2 1 (-1) 2 1 0 2 0 0,
  tt 1 2 (-1) 2 2 (-2) 1 2 (-2),
  tt 1 2 (-1) 2 2 (-1) 2 2 (-2),
  tt 1 2 (-1) 1 2 0 2 2 0,
  tt 1 2 (-1) 2 2 0 2 2 (-1),
  tt 0 (-2) 0 0 (-1) 0 1 (-1) 0,
  tt 0 (-2) 0 1 (-1) 0 1 (-2) 0,
  tt 0 (-2) 0 0 (-2) 1 0 (-1) 1,
  tt 0 (-2) 0 0 (-1) 1 0 (-1) 0,
  tt 2 (-2) 0 1 (-2) 0 1 (-1) 0,
  tt 2 (-2) 0 1 (-1) 0 2 (-1) 0,
  tt 2 (-2) 0 1 (-2) 1 1 (-2) 0,
  tt 2 (-2) 0 2 (-2) 1 1 (-2) 1,
  tt 1 (-1) 0 1 0 0 2 0 0,
  tt 1 (-1) 0 2 0 0 2 (-1) 0,
  tt (-2) 0 0 (-2) 1 0 (-1) 1 0,
  tt (-2) 0 0 (-1) 1 0 (-1) 0 0,
  tt (-2) 0 0 (-2) 0 1 (-2) 1 1,
  tt (-2) 0 0 (-2) 1 1 (-2) 1 0,
  tt 0 0 0 0 1 (-1) 0 0 (-1),
  tt 0 0 0 1 (-1) 0 0 (-1) 0,
  tt 0 0 0 1 0 0 1 (-1) 0,
  tt 0 0 0 0 1 0 0 1 (-1),
  tt 0 0 0 (-1) 0 1 (-1) 0 0,
  tt 0 0 0 0 0 1 (-1) 0 1,
  tt 2 0 0 1 0 (-1) 2 0 (-1),
  tt 2 0 0 1 0 0 1 0 (-1),
  tt 2 0 0 2 1 0 3 1 0,
  tt 2 0 0 3 1 0 3 0 0,
  tt 2 0 0 2 (-1) 1 2 (-1) 0,
  tt 2 0 0 2 0 1 2 (-1) 1,
  tt 4 0 0 3 0 0 3 1 0,
  tt 4 0 0 3 1 0 4 1 0,
  tt 4 0 0 3 0 1 3 0 0,
  tt 4 0 0 4 0 1 3 0 1,
  tt (-1) 1 0 0 0 0 (-1) 0 0,
  tt (-1) 1 0 0 1 0 0 0 0,
  tt 3 1 0 2 1 0 2 2 0,
  tt 3 1 0 2 2 0 3 2 0,
  tt (-2) 2 0 (-1) 1 0 (-2) 1 0,
  tt (-2) 2 0 (-1) 2 0 (-1) 1 0,
  tt (-2) 2 0 (-2) 2 1 (-1) 2 1,
  tt (-2) 2 0 (-1) 2 1 (-1) 2 0,
  tt 0 2 0 1 2 (-1) 0 2 (-1),
  tt 0 2 0 (-1) 1 0 (-1) 2 0,
  tt 0 2 0 0 1 0 (-1) 1 0,
  tt 0 2 0 1 2 0 1 2 (-1),
  tt 0 2 0 0 2 1 0 3 1,
  tt 0 2 0 0 3 1 0 3 0,
  tt 2 2 0 2 1 (-1) 2 2 (-1),
  tt 2 2 0 2 1 0 2 1 (-1),
  tt 2 2 0 1 2 0 1 3 0,
  tt 2 2 0 1 3 0 2 3 0,
  tt 2 2 0 2 2 1 3 2 1,
  tt 2 2 0 3 2 1 3 2 0,
  tt 4 2 0 3 1 0 3 2 0,
  tt 4 2 0 4 1 0 3 1 0,
  tt 4 2 0 4 1 1 4 1 0,
  tt 4 2 0 4 2 1 4 1 1,
  tt 1 3 0 0 2 0 0 3 0,
  tt 1 3 0 1 2 0 0 2 0,
  tt 0 4 0 1 3 0 0 3 0,
  tt 0 4 0 1 4 0 1 3 0,
  tt 0 4 0 0 4 1 1 4 1,
  tt 0 4 0 1 4 1 1 4 0,
  tt 2 4 0 1 3 0 1 4 0,
  tt 2 4 0 2 3 0 1 3 0,
  tt 2 4 0 2 3 1 2 3 0,
  tt 2 4 0 2 4 1 2 3 1,
  tt 1 (-2) 1 0 (-2) 0 1 (-2) 0,
  tt 1 (-2) 1 0 (-2) 1 0 (-2) 0,
  tt 1 (-2) 1 2 (-2) 1 2 (-2) 2,
  tt 1 (-2) 1 2 (-2) 2 1 (-2) 2,
  tt 0 (-1) 1 0 0 0 0 (-1) 0,
  tt 0 (-1) 1 0 (-2) 1 0 (-2) 2,
  tt 0 (-1) 1 0 0 1 0 0 0,
  tt 0 (-1) 1 0 (-2) 2 0 (-1) 2,
  tt 2 (-1) 1 2 (-2) 0 2 (-1) 0,
  tt 2 (-1) 1 2 (-2) 1 2 (-2) 0,
  tt 2 (-1) 1 2 0 1 2 0 2,
  tt 2 (-1) 1 2 0 2 2 (-1) 2,
  tt (-1) 0 1 (-2) 0 0 (-1) 0 0,
  tt (-1) 0 1 (-2) 0 1 (-2) 0 0,
  tt (-1) 0 1 0 0 1 0 0 2,
  tt (-1) 0 1 0 0 2 (-1) 0 2,
  tt 3 0 1 2 0 0 3 0 0,
  tt 3 0 1 2 0 1 2 0 0,
  tt 3 0 1 4 0 1 4 0 2,
  tt 3 0 1 4 0 2 3 0 2,
  tt (-2) 1 1 (-2) 2 0 (-2) 1 0,
  tt (-2) 1 1 (-2) 0 1 (-2) 0 2,
  tt (-2) 1 1 (-2) 2 1 (-2) 2 0,
  tt (-2) 1 1 (-2) 0 2 (-2) 1 2,
  tt 4 1 1 4 0 0 4 1 0,
  tt 4 1 1 4 0 1 4 0 0,
  tt 4 1 1 4 2 1 4 2 2,
  tt 4 1 1 4 2 2 4 1 2,
  tt (-1) 2 1 0 2 0 (-1) 2 0,
  tt (-1) 2 1 (-2) 2 1 (-2) 2 2,
  tt (-1) 2 1 0 2 1 0 2 0,
  tt (-1) 2 1 (-2) 2 2 (-1) 2 2,
  tt 3 2 1 4 2 0 3 2 0,
  tt 3 2 1 2 2 1 2 2 2,
  tt 3 2 1 4 2 1 4 2 0,
  tt 3 2 1 2 2 2 3 2 2,
  tt 0 3 1 0 4 0 0 3 0,
  tt 0 3 1 0 2 1 0 2 2,
  tt 0 3 1 0 4 1 0 4 0,
  tt 0 3 1 0 2 2 0 3 2,
  tt 2 3 1 2 2 0 2 3 0,
  tt 2 3 1 2 2 1 2 2 0,
  tt 2 3 1 2 4 1 2 4 2,
  tt 2 3 1 2 4 2 2 3 2,
  tt 1 4 1 2 4 0 1 4 0,
  tt 1 4 1 0 4 1 0 4 2,
  tt 1 4 1 2 4 1 2 4 0,
  tt 1 4 1 0 4 2 1 4 2,
  tt 0 (-2) 2 0 (-2) 1 1 (-2) 1,
  tt 0 (-2) 2 1 (-2) 1 1 (-2) 2,
  tt 0 (-2) 2 1 (-2) 2 1 (-1) 2,
  tt 0 (-2) 2 1 (-1) 2 0 (-1) 2,
  tt 2 (-2) 2 2 (-2) 1 2 (-1) 1,
  tt 2 (-2) 2 2 (-1) 1 2 (-1) 2,
  tt 2 (-2) 2 1 (-1) 2 1 (-2) 2,
  tt 2 (-2) 2 2 (-1) 2 1 (-1) 2,
  tt 1 (-1) 2 0 0 2 0 (-1) 2,
  tt 1 (-1) 2 1 0 2 0 0 2,
  tt (-2) 0 2 (-2) 0 1 (-1) 0 1,
  tt (-2) 0 2 (-1) 0 1 (-1) 0 2,
  tt (-2) 0 2 (-1) 0 2 (-1) 1 2,
  tt (-2) 0 2 (-1) 1 2 (-2) 1 2,
  tt 0 0 2 0 (-1) 1 0 (-1) 2,
  tt 0 0 2 0 0 1 0 (-1) 1,
  tt 0 0 2 1 0 2 1 0 3,
  tt 0 0 2 (-1) 1 2 (-1) 0 2,
  tt 0 0 2 0 1 2 (-1) 1 2,
  tt 0 0 2 1 0 3 0 0 3,
  tt 2 0 2 2 0 1 3 0 1,
  tt 2 0 2 3 0 1 3 0 2,
  tt 2 0 2 1 (-1) 2 2 (-1) 2,
  tt 2 0 2 1 0 2 1 (-1) 2,
  tt 2 0 2 2 1 2 2 1 3,
  tt 2 0 2 2 1 3 2 0 3,
  tt 4 0 2 4 0 1 4 1 1,
  tt 4 0 2 4 1 1 4 1 2,
  tt 4 0 2 3 1 2 3 0 2,
  tt 4 0 2 4 1 2 3 1 2,
  tt (-1) 1 2 0 1 2 0 2 2,
  tt (-1) 1 2 0 2 2 (-1) 2 2,
  tt 3 1 2 2 0 2 3 0 2,
  tt 3 1 2 2 1 2 2 0 2,
  tt (-2) 2 2 (-2) 1 1 (-2) 1 2,
  tt (-2) 2 2 (-2) 2 1 (-2) 1 1,
  tt (-2) 2 2 (-2) 1 2 (-1) 1 2,
  tt (-2) 2 2 (-1) 1 2 (-1) 2 2,
  tt 0 2 2 (-1) 2 1 (-1) 2 2,
  tt 0 2 2 0 2 1 (-1) 2 1,
  tt 0 2 2 0 1 2 0 1 3,
  tt 0 2 2 1 2 2 1 3 2,
  tt 0 2 2 1 3 2 0 3 2,
  tt 0 2 2 0 1 3 0 2 3,
  tt 2 2 2 2 2 1 2 3 1,
  tt 2 2 2 2 3 1 2 3 2,
  tt 2 2 2 2 1 2 3 1 2,
  tt 2 2 2 3 1 2 3 2 2,
  tt 2 2 2 1 2 2 1 2 3,
  tt 2 2 2 1 2 3 2 2 3,
  tt 4 2 2 3 2 1 3 2 2,
  tt 4 2 2 4 2 1 3 2 1,
  tt 4 2 2 3 1 2 4 1 2,
  tt 4 2 2 3 2 2 3 1 2,
  tt 1 3 2 1 2 2 2 2 2,
  tt 1 3 2 2 2 2 2 3 2,
  tt 0 4 2 0 3 1 0 3 2,
  tt 0 4 2 0 4 1 0 3 1,
  tt 0 4 2 0 3 2 1 3 2,
  tt 0 4 2 1 3 2 1 4 2,
  tt 2 4 2 1 4 1 1 4 2,
  tt 2 4 2 2 4 1 1 4 1,
  tt 2 4 2 1 3 2 2 3 2,
  tt 2 4 2 1 4 2 1 3 2,
  tt 1 0 3 1 0 2 2 0 2,
  tt 1 0 3 2 0 2 2 0 3,
  tt 1 0 3 2 0 3 2 0 4,
  tt 1 0 3 2 0 4 1 0 4,
  tt 0 1 3 0 0 2 0 0 3,
  tt 0 1 3 0 1 2 0 0 2,
  tt 0 1 3 0 0 3 0 0 4,
  tt 0 1 3 0 0 4 0 1 4,
  tt 2 1 3 2 1 2 2 2 2,
  tt 2 1 3 2 2 2 2 2 3,
  tt 2 1 3 2 2 3 2 2 4,
  tt 2 1 3 2 2 4 2 1 4,
  tt 1 2 3 0 2 2 0 2 3,
  tt 1 2 3 1 2 2 0 2 2,
  tt 1 2 3 0 2 3 0 2 4,
  tt 1 2 3 0 2 4 1 2 4,
  tt 0 0 4 0 0 3 1 0 3,
  tt 0 0 4 1 0 3 1 0 4,
  tt 0 0 4 1 0 4 1 1 4,
  tt 0 0 4 1 1 4 0 1 4,
  tt 2 0 4 2 0 3 2 1 3,
  tt 2 0 4 2 1 3 2 1 4,
  tt 2 0 4 1 1 4 1 0 4,
  tt 2 0 4 2 1 4 1 1 4,
  tt 0 2 4 0 1 3 0 1 4,
  tt 0 2 4 0 2 3 0 1 3,
  tt 0 2 4 0 1 4 1 1 4,
  tt 0 2 4 1 1 4 1 2 4,
  tt 2 2 4 1 2 3 1 2 4,
  tt 2 2 4 2 2 3 1 2 3,
  tt 2 2 4 1 1 4 2 1 4,
  tt 2 2 4 1 2 4 1 1 4]

example : sortedMesh keys2 = want2 := by decide +kernel

/-- Case 3 of `TestManifoldMesh`. -/
def keys3 : List Key := [⟨0, 0, 0⟩, ⟨0, 0, 1⟩]

/-- Expected triangles of case 3. -/
def want3 : List (Tri (BinVOX.Vec ℚ)) := [
  tt 0 0 0 0 1 0 1 1 0,
  tt 0 0 0 1 1 0 1 0 0,
  tt 0 0 0 0 0 1 0 1 1,
  tt 0 0 0 0 1 1 0 1 0,
  tt 2 0 0 1 0 0 1 1 0,
  tt 2 0 0 1 1 0 2 1 0,
  tt 2 0 0 1 0 1 1 0 0,
  tt 2 0 0 2 0 1 1 0 1,
  tt 0 2 0 1 1 0 0 1 0,
  tt 0 2 0 1 2 0 1 1 0,
  tt 0 2 0 0 2 1 1 2 1,
  tt 0 2 0 1 2 1 1 2 0,
  tt 2 2 0 1 1 0 1 2 0,
  tt 2 2 0 2 1 0 1 1 0,
  tt 2 2 0 2 1 1 2 1 0,
  tt 2 2 0 2 2 1 2 1 1,
  tt 1 0 1 0 0 0 1 0 0,
  tt 1 0 1 0 0 1 0 0 0,
  tt 0 1 1 0 2 0 0 1 0,
  tt 0 1 1 0 2 1 0 2 0,
  tt 2 1 1 2 0 0 2 1 0,
  tt 2 1 1 2 0 1 2 0 0,
  tt 1 2 1 2 2 0 1 2 0,
  tt 1 2 1 2 2 1 2 2 0,
  tt 0 0 2 0 0 1 1 0 1,
  tt 0 0 2 1 0 1 1 0 2,
  tt 0 0 2 0 1 1 0 0 1,
  tt 0 0 2 0 1 2 0 1 1,
  tt 2 0 2 1 0 1 2 0 1,
  tt 2 0 2 2 0 1 2 1 1,
  tt 2 0 2 2 1 1 2 1 2,
  tt 2 0 2 1 0 2 1 0 1,
  tt 0 2 2 0 1 1 0 1 2,
  tt 0 2 2 0 2 1 0 1 1,
  tt 0 2 2 1 2 1 0 2 1,
  tt 0 2 2 1 2 2 1 2 1,
  tt 2 2 2 2 1 1 2 2 1,
  tt 2 2 2 1 2 1 1 2 2,
  tt 2 2 2 2 2 1 1 2 1,
  tt 2 2 2 2 1 2 2 1 1,
  tt 0 0 3 0 0 2 1 0 2,
  tt 0 0 3 1 0 2 1 0 3,
  tt 0 0 3 0 1 2 0 0 2,
  tt 0 0 3 0 1 3 0 1 2,
  tt 1 0 3 2 0 3 2 0 4,
  tt 1 0 3 2 0 4 1 0 4,
  tt 2 0 3 1 0 2 2 0 2,
  tt 2 0 3 2 0 2 2 1 2,
  tt 2 0 3 2 1 2 2 1 3,
  tt 2 0 3 1 0 3 1 0 2,
  tt 0 1 3 0 0 3 0 0 4,
  tt 0 1 3 0 0 4 0 1 4,
  tt 2 1 3 2 2 3 2 2 4,
  tt 2 1 3 2 2 4 2 1 4,
  tt 0 2 3 0 1 2 0 1 3,
  tt 0 2 3 0 2 2 0 1 2,
  tt 0 2 3 1 2 2 0 2 2,
  tt 0 2 3 1 2 3 1 2 2,
  tt 1 2 3 0 2 3 0 2 4,
  tt 1 2 3 0 2 4 1 2 4,
  tt 2 2 3 2 1 2 2 2 2,
  tt 2 2 3 1 2 2 1 2 3,
  tt 2 2 3 2 2 2 1 2 2,
  tt 2 2 3 2 1 3 2 1 2,
  tt 0 0 4 0 0 3 1 0 3,
  tt 0 0 4 1 0 3 1 0 4,
  tt 0 0 4 1 0 4 1 1 4,
  tt 0 0 4 1 1 4 0 1 4,
  tt 2 0 4 2 0 3 2 1 3,
  tt 2 0 4 2 1 3 2 1 4,
  tt 2 0 4 1 1 4 1 0 4,
  tt 2 0 4 2 1 4 1 1 4,
  tt 0 2 4 0 1 3 0 1 4,
  tt 0 2 4 0 2 3 0 1 3,
  tt 0 2 4 0 1 4 1 1 4,
  tt 0 2 4 1 1 4 1 2 4,
  tt 2 2 4 1 2 3 1 2 4,
  tt 2 2 4 2 2 3 1 2 3,
  tt 2 2 4 1 1 4 2 1 4,
  tt 2 2 4 1 2 4 1 1 4]

example : sortedMesh keys3 = want3 := by decide +kernel

/-- Case 4 of `TestManifoldMesh`. -/
def keys4 : List Key := [⟨0, 0, 0⟩, ⟨0, 1, 1⟩]

/-- Expected triangles of case 4. -/
def want4 : List (Tri (BinVOX.Vec ℚ)) := [
  tt 0 0 0 0 1 0 1 1 0,
  tt 0 0 0 1 1 0 1 0 0,
  tt 0 0 0 0 0 1 0 1 1,
  tt 0 0 0 0 1 1 0 1 0,
  tt 2 0 0 1 0 0 1 1 0,
  tt 2 0 0 1 1 0 2 1 0,
  tt 2 0 0 1 0 1 1 0 0,
  tt 2 0 0 2 0 1 1 0 1,
  tt 0 2 0 1 1 0 0 1 0,
  tt 0 2 0 1 2 0 1 1 0,
  tt 0 2 0 0 2 1 1 2 1,
  tt 0 2 0 1 2 1 1 2 0,
  tt 2 2 0 1 1 0 1 2 0,
  tt 2 2 0 2 1 0 1 1 0,
  tt 2 2 0 2 1 1 2 1 0,
  tt 2 2 0 2 2 1 2 1 1,
  tt 1 0 1 0 0 0 1 0 0,
  tt 1 0 1 0 0 1 0 0 0,
  tt 1 0 1 2 0 1 2 0 2,
  tt 1 0 1 2 0 2 1 0 2,
  tt 0 1 1 0 2 0 0 1 0,
  tt 0 1 1 0 0 1 0 0 2,
  tt 0 1 1 0 2 1 0 2 0,
  tt 0 1 1 0 0 2 0 1 2,
  tt 0 1 1 0 1 2 0 2 3,
  tt 0 1 1 0 3 2 0 2 1,
  tt 0 1 1 0 2 3 0 3 3,
  tt 0 1 1 0 3 3 0 3 2,
  tt 2 1 1 2 0 0 2 1 0,
  tt 2 1 1 2 0 1 2 0 0,
  tt 1 2 1 2 2 0 1 2 0,
  tt 1 2 1 2 2 1 2 2 0,
  tt 2 2 1 1 2 1 1 3 2,
  tt 2 2 1 1 3 2 2 3 2,
  tt 0 0 2 0 0 1 1 0 1,
  tt 0 0 2 1 0 1 1 0 2,
  tt 0 0 2 1 0 2 1 1 2,
  tt 0 0 2 1 1 2 0 1 2,
  tt 2 0 2 2 0 1 2 1 1,
  tt 2 0 2 2 1 1 2 1 2,
  tt 2 0 2 1 1 2 1 0 2,
  tt 2 0 2 2 1 2 1 1 2,
  tt 0 1 2 1 1 2 1 2 3,
  tt 0 1 2 1 2 3 0 2 3,
  tt 0 3 2 1 2 1 0 2 1,
  tt 0 3 2 1 3 2 1 2 1,
  tt 0 4 2 1 3 2 0 3 2,
  tt 0 4 2 1 4 2 1 3 2,
  tt 0 4 2 0 4 3 1 4 3,
  tt 0 4 2 1 4 3 1 4 2,
  tt 2 4 2 1 3 2 1 4 2,
  tt 2 4 2 2 3 2 1 3 2,
  tt 2 4 2 2 3 3 2 3 2,
  tt 2 4 2 2 4 3 2 3 3,
  tt 1 2 3 2 2 3 2 2 4,
  tt 1 2 3 2 2 4 1 2 4,
  tt 2 2 3 1 1 2 2 1 2,
  tt 2 2 3 1 2 3 1 1 2,
  tt 0 3 3 0 4 2 0 3 2,
  tt 0 3 3 0 2 3 0 2 4,
  tt 0 3 3 0 4 3 0 4 2,
  tt 0 3 3 0 2 4 0 3 4,
  tt 2 3 3 2 1 1 2 2 1,
  tt 2 3 3 2 2 1 2 3 2,
  tt 2 3 3 2 1 2 2 1 1,
  tt 2 3 3 2 2 3 2 1 2,
  tt 2 3 3 2 4 3 2 4 4,
  tt 2 3 3 2 4 4 2 3 4,
  tt 1 4 3 2 4 2 1 4 2,
  tt 1 4 3 0 4 3 0 4 4,
  tt 1 4 3 2 4 3 2 4 2,
  tt 1 4 3 0 4 4 1 4 4,
  tt 0 2 4 0 2 3 1 2 3,
  tt 0 2 4 1 2 3 1 2 4,
  tt 0 2 4 1 2 4 1 3 4,
  tt 0 2 4 1 3 4 0 3 4,
  tt 2 2 4 2 2 3 2 3 3,
  tt 2 2 4 2 3 3 2 3 4,
  tt 2 2 4 1 3 4 1 2 4,
  tt 2 2 4 2 3 4 1 3 4,
  tt 0 4 4 0 3 3 0 3 4,
  tt 0 4 4 0 4 3 0 3 3,
  tt 0 4 4 0 3 4 1 3 4,
  tt 0 4 4 1 3 4 1 4 4,
  tt 2 4 4 1 4 3 1 4 4,
  tt 2 4 4 2 4 3 1 4 3,
  tt 2 4 4 1 3 4 2 3 4,
  tt 2 4 4 1 4 4 1 3 4]

example : sortedMesh keys4 = want4 := by decide +kernel

/-- Case 5 of `TestManifoldMesh`. -/
def keys5 : List Key := [⟨0, 0, 0⟩, ⟨0, -1, 1⟩]

/-- Expected triangles of case 5. -/
def want5 : List (Tri (BinVOX.Vec ℚ)) := [
  tt 0 0 0 0 1 0 1 1 0,
  tt 0 0 0 1 1 0 1 0 0,
  tt 0 0 0 0 0 1 0 1 1,
  tt 0 0 0 0 1 1 0 1 0,
  tt 2 0 0 1 0 0 1 1 0,
  tt 2 0 0 1 1 0 2 1 0,
  tt 2 0 0 1 0 1 1 0 0,
  tt 2 0 0 2 0 1 1 0 1,
  tt 0 2 0 1 1 0 0 1 0,
  tt 0 2 0 1 2 0 1 1 0,
  tt 0 2 0 0 2 1 1 2 1,
  tt 0 2 0 1 2 1 1 2 0,
  tt 2 2 0 1 1 0 1 2 0,
  tt 2 2 0 2 1 0 1 1 0,
  tt 2 2 0 2 1 1 2 1 0,
  tt 2 2 0 2 2 1 2 1 1,
  tt 0 0 1 1 0 1 1 (-1) 2,
  tt 0 0 1 1 (-1) 2 0 (-1) 2,
  tt 1 0 1 0 0 0 1 0 0,
  tt 1 0 1 0 0 1 0 0 0,
  tt 0 1 1 0 2 0 0 1 0,
  tt 0 1 1 0 0 1 0 (-1) 2,
  tt 0 1 1 0 2 1 0 2 0,
  tt 0 1 1 0 (-1) 2 0 (-1) 3,
  tt 0 1 1 0 (-1) 3 0 0 3,
  tt 0 1 1 0 0 3 0 1 2,
  tt 2 1 1 2 0 0 2 1 0,
  tt 2 1 1 2 0 1 2 0 0,
  tt 2 1 1 2 2 1 2 2 2,
  tt 2 1 1 2 (-1) 2 2 0 1,
  tt 2 1 1 2 1 2 2 0 3,
  tt 2 1 1 2 2 2 2 1 2,
  tt 2 1 1 2 (-1) 3 2 (-1) 2,
  tt 2 1 1 2 0 3 2 (-1) 3,
  tt 1 2 1 2 2 0 1 2 0,
  tt 1 2 1 0 2 1 0 2 2,
  tt 1 2 1 2 2 1 2 2 0,
  tt 1 2 1 0 2 2 1 2 2,
  tt 0 (-2) 2 0 (-1) 2 1 (-1) 2,
  tt 0 (-2) 2 1 (-1) 2 1 (-2) 2,
  tt 0 (-2) 2 0 (-2) 3 0 (-1) 3,
  tt 0 (-2) 2 0 (-1) 3 0 (-1) 2,
  tt 2 (-2) 2 1 (-2) 2 1 (-1) 2,
  tt 2 (-2) 2 1 (-1) 2 2 (-1) 2,
  tt 2 (-2) 2 1 (-2) 3 1 (-2) 2,
  tt 2 (-2) 2 2 (-2) 3 1 (-2) 3,
  tt 2 (-1) 2 1 0 1 2 0 1,
  tt 2 (-1) 2 1 (-1) 2 1 0 1,
  tt 2 1 2 1 1 2 1 0 3,
  tt 2 1 2 1 0 3 2 0 3,
  tt 0 2 2 0 1 1 0 1 2,
  tt 0 2 2 0 2 1 0 1 1,
  tt 0 2 2 0 1 2 1 1 2,
  tt 0 2 2 1 1 2 1 2 2,
  tt 2 2 2 1 2 1 1 2 2,
  tt 2 2 2 2 2 1 1 2 1,
  tt 2 2 2 1 1 2 2 1 2,
  tt 2 2 2 1 2 2 1 1 2,
  tt 1 (-2) 3 0 (-2) 2 1 (-2) 2,
  tt 1 (-2) 3 0 (-2) 3 0 (-2) 2,
  tt 1 (-2) 3 2 (-2) 3 2 (-2) 4,
  tt 1 (-2) 3 2 (-2) 4 1 (-2) 4,
  tt 0 (-1) 3 0 (-2) 3 0 (-2) 4,
  tt 0 (-1) 3 0 (-2) 4 0 (-1) 4,
  tt 2 (-1) 3 2 (-2) 2 2 (-1) 2,
  tt 2 (-1) 3 2 (-2) 3 2 (-2) 2,
  tt 2 (-1) 3 2 0 3 2 0 4,
  tt 2 (-1) 3 2 0 4 2 (-1) 4,
  tt 0 0 3 1 1 2 0 1 2,
  tt 0 0 3 1 0 3 1 1 2,
  tt 1 0 3 0 0 3 0 0 4,
  tt 1 0 3 0 0 4 1 0 4,
  tt 0 (-2) 4 0 (-2) 3 1 (-2) 3,
  tt 0 (-2) 4 1 (-2) 3 1 (-2) 4,
  tt 0 (-2) 4 1 (-2) 4 1 (-1) 4,
  tt 0 (-2) 4 1 (-1) 4 0 (-1) 4,
  tt 2 (-2) 4 2 (-2) 3 2 (-1) 3,
  tt 2 (-2) 4 2 (-1) 3 2 (-1) 4,
  tt 2 (-2) 4 1 (-1) 4 1 (-2) 4,
  tt 2 (-2) 4 2 (-1) 4 1 (-1) 4,
  tt 0 0 4 0 (-1) 3 0 (-1) 4,
  tt 0 0 4 0 0 3 0 (-1) 3,
  tt 0 0 4 0 (-1) 4 1 (-1) 4,
  tt 0 0 4 1 (-1) 4 1 0 4,
  tt 2 0 4 1 0 3 1 0 4,
  tt 2 0 4 2 0 3 1 0 3,
  tt 2 0 4 1 (-1) 4 2 (-1) 4,
  tt 2 0 4 1 0 4 1 (-1) 4]

example : sortedMesh keys5 = want5 := by decide +kernel

/-- Case 6 of `TestManifoldMesh`. -/
def keys6 : List Key := [⟨0, 0, 0⟩, ⟨1, 0, 1⟩]

/-- Expected triangles of case 6. -/
def want6 : List (Tri (BinVOX.Vec ℚ)) := [
  tt 0 0 0 0 1 0 1 1 0,
  tt 0 0 0 1 1 0 1 0 0,
  tt 0 0 0 0 0 1 0 1 1,
  tt 0 0 0 0 1 1 0 1 0,
  tt 2 0 0 1 0 0 1 1 0,
  tt 2 0 0 1 1 0 2 1 0,
  tt 2 0 0 1 0 1 1 0 0,
  tt 2 0 0 2 0 1 1 0 1,
  tt 0 2 0 1 1 0 0 1 0,
  tt 0 2 0 1 2 0 1 1 0,
  tt 0 2 0 0 2 1 1 2 1,
  tt 0 2 0 1 2 1 1 2 0,
  tt 2 2 0 1 1 0 1 2 0,
  tt 2 2 0 2 1 0 1 1 0,
  tt 2 2 0 2 1 1 2 1 0,
  tt 2 2 0 2 2 1 2 1 1,
  tt 1 0 1 0 0 0 1 0 0,
  tt 1 0 1 0 0 1 0 0 0,
  tt 2 0 1 2 1 1 3 1 2,
  tt 2 0 1 3 1 2 3 0 2,
  tt 0 1 1 0 2 0 0 1 0,
  tt 0 1 1 0 0 1 0 0 2,
  tt 0 1 1 0 2 1 0 2 0,
  tt 0 1 1 0 0 2 0 1 2,
  tt 2 1 1 2 0 0 2 1 0,
  tt 2 1 1 2 0 1 2 0 0,
  tt 1 2 1 2 2 0 1 2 0,
  tt 1 2 1 0 2 1 0 2 2,
  tt 1 2 1 2 2 1 2 2 0,
  tt 1 2 1 0 2 2 1 2 2,
  tt 1 2 1 1 2 2 2 2 3,
  tt 1 2 1 3 2 2 2 2 1,
  tt 1 2 1 2 2 3 3 2 3,
  tt 1 2 1 3 2 3 3 2 2,
  tt 0 0 2 0 0 1 1 0 1,
  tt 0 0 2 1 0 1 1 0 2,
  tt 0 0 2 1 0 2 1 1 2,
  tt 0 0 2 1 1 2 0 1 2,
  tt 4 0 2 3 0 2 3 1 2,
  tt 4 0 2 3 1 2 4 1 2,
  tt 4 0 2 3 0 3 3 0 2,
  tt 4 0 2 4 0 3 3 0 3,
  tt 0 2 2 0 1 1 0 1 2,
  tt 0 2 2 0 2 1 0 1 1,
  tt 0 2 2 0 1 2 1 1 2,
  tt 0 2 2 1 1 2 1 2 2,
  tt 1 2 2 1 1 2 2 1 3,
  tt 1 2 2 2 1 3 2 2 3,
  tt 3 2 2 2 1 1 2 2 1,
  tt 3 2 2 3 1 2 2 1 1,
  tt 4 2 2 3 1 2 3 2 2,
  tt 4 2 2 4 1 2 3 1 2,
  tt 4 2 2 4 1 3 4 1 2,
  tt 4 2 2 4 2 3 4 1 3,
  tt 2 0 3 1 1 2 1 0 2,
  tt 2 0 3 2 1 3 1 1 2,
  tt 3 0 3 1 0 1 2 0 1,
  tt 3 0 3 2 0 1 3 0 2,
  tt 3 0 3 1 0 2 1 0 1,
  tt 3 0 3 2 0 3 1 0 2,
  tt 3 0 3 4 0 3 4 0 4,
  tt 3 0 3 4 0 4 3 0 4,
  tt 2 1 3 2 0 3 2 0 4,
  tt 2 1 3 2 0 4 2 1 4,
  tt 4 1 3 4 0 2 4 1 2,
  tt 4 1 3 4 0 3 4 0 2,
  tt 4 1 3 4 2 3 4 2 4,
  tt 4 1 3 4 2 4 4 1 4,
  tt 3 2 3 4 2 2 3 2 2,
  tt 3 2 3 2 2 3 2 2 4,
  tt 3 2 3 4 2 3 4 2 2,
  tt 3 2 3 2 2 4 3 2 4,
  tt 2 0 4 2 0 3 3 0 3,
  tt 2 0 4 3 0 3 3 0 4,
  tt 2 0 4 3 0 4 3 1 4,
  tt 2 0 4 3 1 4 2 1 4,
  tt 4 0 4 4 0 3 4 1 3,
  tt 4 0 4 4 1 3 4 1 4,
  tt 4 0 4 3 1 4 3 0 4,
  tt 4 0 4 4 1 4 3 1 4,
  tt 2 2 4 2 1 3 2 1 4,
  tt 2 2 4 2 2 3 2 1 3,
  tt 2 2 4 2 1 4 3 1 4,
  tt 2 2 4 3 1 4 3 2 4,
  tt 4 2 4 3 2 3 3 2 4,
  tt 4 2 4 4 2 3 3 2 3,
  tt 4 2 4 3 1 4 4 1 4,
  tt 4 2 4 3 2 4 3 1 4]

example : sortedMesh keys6 = want6 := by decide +kernel

/-- Case 7 of `TestManifoldMesh`. -/
def keys7 : List Key := [⟨0, 0, 0⟩, ⟨1, 1, 1⟩]

/-- Expected triangles of case 7. -/
def want7 : List (Tri (BinVOX.Vec ℚ)) := [
  tt 0 0 0 0 1 0 1 1 0,
  tt 0 0 0 1 1 0 1 0 0,
  tt 0 0 0 0 0 1 0 1 1,
  tt 0 0 0 0 1 1 0 1 0,
  tt 2 0 0 1 0 0 1 1 0,
  tt 2 0 0 1 1 0 2 1 0,
  tt 2 0 0 1 0 1 1 0 0,
  tt 2 0 0 2 0 1 1 0 1,
  tt 0 2 0 1 1 0 0 1 0,
  tt 0 2 0 1 2 0 1 1 0,
  tt 0 2 0 0 2 1 1 2 1,
  tt 0 2 0 1 2 1 1 2 0,
  tt 2 2 0 1 1 0 1 2 0,
  tt 2 2 0 2 1 0 1 1 0,
  tt 2 2 0 2 1 1 2 1 0,
  tt 2 2 0 2 2 1 2 1 1,
  tt 1 0 1 0 0 0 1 0 0,
  tt 1 0 1 0 0 1 0 0 0,
  tt 1 0 1 2 0 1 2 0 2,
  tt 1 0 1 2 0 2 1 0 2,
  tt 0 1 1 0 2 0 0 1 0,
  tt 0 1 1 0 0 1 0 0 2,
  tt 0 1 1 0 2 1 0 2 0,
  tt 0 1 1 0 0 2 0 1 2,
  tt 2 1 1 2 0 0 2 1 0,
  tt 2 1 1 2 0 1 2 0 0,
  tt 2 1 1 2 2 1 3 3 2,
  tt 2 1 1 3 3 2 3 2 2,
  tt 1 2 1 2 2 0 1 2 0,
  tt 1 2 1 0 2 1 0 2 2,
  tt 1 2 1 2 2 1 2 2 0,
  tt 1 2 1 0 2 2 1 2 2,
  tt 1 2 1 1 2 2 2 3 3,
  tt 1 2 1 2 3 3 2 3 2,
  tt 2 2 1 1 2 1 2 3 2,
  tt 2 2 1 2 3 2 3 3 2,
  tt 0 0 2 0 0 1 1 0 1,
  tt 0 0 2 1 0 1 1 0 2,
  tt 0 0 2 1 0 2 1 1 2,
  tt 0 0 2 1 1 2 0 1 2,
  tt 2 0 2 2 0 1 2 1 1,
  tt 2 0 2 2 1 1 2 1 2,
  tt 2 0 2 1 1 2 1 0 2,
  tt 2 0 2 2 1 2 1 1 2,
  tt 1 1 2 2 1 2 3 2 3,
  tt 1 1 2 3 2 3 2 2 3,
  tt 2 1 2 2 1 1 3 2 2,
  tt 2 1 2 3 2 2 3 2 3,
  tt 0 2 2 0 1 1 0 1 2,
  tt 0 2 2 0 2 1 0 1 1,
  tt 0 2 2 0 1 2 1 1 2,
  tt 0 2 2 1 1 2 1 2 2,
  tt 1 2 2 1 1 2 2 2 3,
  tt 1 2 2 2 2 3 2 3 3,
  tt 4 2 2 3 2 2 3 3 2,
  tt 4 2 2 3 3 2 4 3 2,
  tt 4 2 2 3 2 3 3 2 2,
  tt 4 2 2 4 2 3 3 2 3,
  tt 2 4 2 3 3 2 2 3 2,
  tt 2 4 2 3 4 2 3 3 2,
  tt 2 4 2 2 4 3 3 4 3,
  tt 2 4 2 3 4 3 3 4 2,
  tt 4 4 2 3 3 2 3 4 2,
  tt 4 4 2 4 3 2 3 3 2,
  tt 4 4 2 4 3 3 4 3 2,
  tt 4 4 2 4 4 3 4 3 3,
  tt 3 2 3 4 2 3 4 2 4,
  tt 3 2 3 4 2 4 3 2 4,
  tt 2 3 3 2 4 2 2 3 2,
  tt 2 3 3 2 2 3 2 2 4,
  tt 2 3 3 2 4 3 2 4 2,
  tt 2 3 3 2 2 4 2 3 4,
  tt 4 3 3 4 2 2 4 3 2,
  tt 4 3 3 4 2 3 4 2 2,
  tt 4 3 3 4 4 3 4 4 4,
  tt 4 3 3 4 4 4 4 3 4,
  tt 3 4 3 4 4 2 3 4 2,
  tt 3 4 3 2 4 3 2 4 4,
  tt 3 4 3 4 4 3 4 4 2,
  tt 3 4 3 2 4 4 3 4 4,
  tt 2 2 4 2 2 3 3 2 3,
  tt 2 2 4 3 2 3 3 2 4,
  tt 2 2 4 3 2 4 3 3 4,
  tt 2 2 4 3 3 4 2 3 4,
  tt 4 2 4 4 2 3 4 3 3,
  tt 4 2 4 4 3 3 4 3 4,
  tt 4 2 4 3 3 4 3 2 4,
  tt 4 2 4 4 3 4 3 3 4,
  tt 2 4 4 2 3 3 2 3 4,
  tt 2 4 4 2 4 3 2 3 3,
  tt 2 4 4 2 3 4 3 3 4,
  tt 2 4 4 3 3 4 3 4 4,
  tt 4 4 4 3 4 3 3 4 4,
  tt 4 4 4 4 4 3 3 4 3,
  tt 4 4 4 3 3 4 4 3 4,
  tt 4 4 4 3 4 4 3 3 4]

example : sortedMesh keys7 = want7 := by decide +kernel

/-- Case 8 of `TestManifoldMesh`. -/
def keys8 : List Key := [⟨0, 0, 0⟩, ⟨1, 1, -1⟩]

/-- Expected triangles of case 8. -/
def want8 : List (Tri (BinVOX.Vec ℚ)) := [
  tt 2 2 (-2) 2 3 (-2) 3 3 (-2),
  tt 2 2 (-2) 3 3 (-2) 3 2 (-2),
  tt 2 2 (-2) 2 2 (-1) 2 3 (-1),
  tt 2 2 (-2) 2 3 (-1) 2 3 (-2),
  tt 4 2 (-2) 3 2 (-2) 3 3 (-2),
  tt 4 2 (-2) 3 3 (-2) 4 3 (-2),
  tt 4 2 (-2) 3 2 (-1) 3 2 (-2),
  tt 4 2 (-2) 4 2 (-1) 3 2 (-1),
  tt 2 4 (-2) 3 3 (-2) 2 3 (-2),
  tt 2 4 (-2) 3 4 (-2) 3 3 (-2),
  tt 2 4 (-2) 2 4 (-1) 3 4 (-1),
  tt 2 4 (-2) 3 4 (-1) 3 4 (-2),
  tt 4 4 (-2) 3 3 (-2) 3 4 (-2),
  tt 4 4 (-2) 4 3 (-2) 3 3 (-2),
  tt 4 4 (-2) 4 3 (-1) 4 3 (-2),
  tt 4 4 (-2) 4 4 (-1) 4 3 (-1),
  tt 2 2 (-1) 3 2 (-1) 2 1 0,
  tt 2 2 (-1) 2 1 0 1 1 0,
  tt 3 2 (-1) 2 2 (-2) 3 2 (-2),
  tt 3 2 (-1) 2 2 (-1) 2 2 (-2),
  tt 3 2 (-1) 4 2 (-1) 4 2 0,
  tt 3 2 (-1) 3 2 0 2 1 1,
  tt 3 2 (-1) 4 2 0 3 2 0,
  tt 3 2 (-1) 2 1 1 2 1 0,
  tt 2 3 (-1) 2 4 (-2) 2 3 (-2),
  tt 2 3 (-1) 2 2 (-1) 1 1 0,
  tt 2 3 (-1) 2 4 (-1) 2 4 (-2),
  tt 2 3 (-1) 1 1 0 1 2 0,
  tt 4 3 (-1) 4 2 (-2) 4 3 (-2),
  tt 4 3 (-1) 4 2 (-1) 4 2 (-2),
  tt 4 3 (-1) 4 4 (-1) 4 4 0,
  tt 4 3 (-1) 4 4 0 4 3 0,
  tt 3 4 (-1) 4 4 (-2) 3 4 (-2),
  tt 3 4 (-1) 2 4 (-1) 2 4 0,
  tt 3 4 (-1) 4 4 (-1) 4 4 (-2),
  tt 3 4 (-1) 2 4 0 3 4 0,
  tt 0 0 0 0 1 0 1 1 0,
  tt 0 0 0 1 1 0 1 0 0,
  tt 0 0 0 0 0 1 0 1 1,
  tt 0 0 0 0 1 1 0 1 0,
  tt 2 0 0 1 0 0 1 1 0,
  tt 2 0 0 1 1 0 2 1 0,
  tt 2 0 0 1 0 1 1 0 0,
  tt 2 0 0 2 0 1 1 0 1,
  tt 0 2 0 1 1 0 0 1 0,
  tt 0 2 0 1 2 0 1 1 0,
  tt 0 2 0 0 2 1 1 2 1,
  tt 0 2 0 1 2 1 1 2 0,
  tt 3 2 0 3 3 0 2 2 1,
  tt 3 2 0 2 2 1 2 1 1,
  tt 4 2 0 4 2 (-1) 4 3 (-1),
  tt 4 2 0 4 3 (-1) 4 3 0,
  tt 4 2 0 3 3 0 3 2 0,
  tt 4 2 0 4 3 0 3 3 0,
  tt 2 3 0 2 3 (-1) 1 2 0,
  tt 2 3 0 1 2 0 1 2 1,
  tt 3 3 0 2 3 0 1 2 1,
  tt 3 3 0 1 2 1 2 2 1,
  tt 2 4 0 2 3 (-1) 2 3 0,
  tt 2 4 0 2 4 (-1) 2 3 (-1),
  tt 2 4 0 2 3 0 3 3 0,
  tt 2 4 0 3 3 0 3 4 0,
  tt 4 4 0 3 4 (-1) 3 4 0,
  tt 4 4 0 4 4 (-1) 3 4 (-1),
  tt 4 4 0 3 3 0 4 3 0,
  tt 4 4 0 3 4 0 3 3 0,
  tt 1 0 1 0 0 0 1 0 0,
  tt 1 0 1 0 0 1 0 0 0,
  tt 1 0 1 2 0 1 2 0 2,
  tt 1 0 1 2 0 2 1 0 2,
  tt 0 1 1 0 2 0 0 1 0,
  tt 0 1 1 0 0 1 0 0 2,
  tt 0 1 1 0 2 1 0 2 0,
  tt 0 1 1 0 0 2 0 1 2,
  tt 2 1 1 2 0 0 2 1 0,
  tt 2 1 1 2 0 1 2 0 0,
  tt 2 1 1 2 2 1 2 2 2,
  tt 2 1 1 2 2 2 2 1 2,
  tt 1 2 1 0 2 1 0 2 2,
  tt 1 2 1 0 2 2 1 2 2,
  tt 0 0 2 0 0 1 1 0 1,
  tt 0 0 2 1 0 1 1 0 2,
  tt 0 0 2 1 0 2 1 1 2,
  tt 0 0 2 1 1 2 0 1 2,
  tt 2 0 2 2 0 1 2 1 1,
  tt 2 0 2 2 1 1 2 1 2,
  tt 2 0 2 1 1 2 1 0 2,
  tt 2 0 2 2 1 2 1 1 2,
  tt 0 2 2 0 1 1 0 1 2,
  tt 0 2 2 0 2 1 0 1 1,
  tt 0 2 2 0 1 2 1 1 2,
  tt 0 2 2 1 1 2 1 2 2,
  tt 2 2 2 1 2 1 1 2 2,
  tt 2 2 2 2 2 1 1 2 1,
  tt 2 2 2 1 1 2 2 1 2,
  tt 2 2 2 1 2 2 1 1 2]

example : sortedMesh keys8 = want8 := by decide +kernel

/-- Case 9 of `TestManifoldMesh`. -/
def keys9 : List Key := [⟨0, 0, 0⟩, ⟨1, -1, 1⟩]

/-- Expected triangles of case 9. -/
def want9 : List (Tri (BinVOX.Vec ℚ)) := [
  tt 0 0 0 0 1 0 1 1 0,
  tt 0 0 0 1 1 0 1 0 0,
  tt 0 0 0 0 0 1 0 1 1,
  tt 0 0 0 0 1 1 0 1 0,
  tt 2 0 0 1 0 0 1 1 0,
  tt 2 0 0 1 1 0 2 1 0,
  tt 2 0 0 1 0 1 1 0 0,
  tt 2 0 0 2 0 1 1 0 1,
  tt 0 2 0 1 1 0 0 1 0,
  tt 0 2 0 1 2 0 1 1 0,
  tt 0 2 0 0 2 1 1 2 1,
  tt 0 2 0 1 2 1 1 2 0,
  tt 2 2 0 1 1 0 1 2 0,
  tt 2 2 0 2 1 0 1 1 0,
  tt 2 2 0 2 1 1 2 1 0,
  tt 2 2 0 2 2 1 2 1 1,
  tt 1 0 1 0 0 0 1 0 0,
  tt 1 0 1 0 0 1 0 0 0,
  tt 1 0 1 2 0 1 3 (-1) 2,
  tt 1 0 1 3 (-1) 2 2 (-1) 2,
  tt 2 0 1 2 1 1 3 0 2,
  tt 2 0 1 3 0 2 3 (-1) 2,
  tt 0 1 1 0 2 0 0 1 0,
  tt 0 1 1 0 0 1 0 0 2,
  tt 0 1 1 0 2 1 0 2 0,
  tt 0 1 1 0 0 2 0 1 2,
  tt 2 1 1 2 0 0 2 1 0,
  tt 2 1 1 2 0 1 2 0 0,
  tt 2 1 1 2 2 1 2 2 2,
  tt 2 1 1 2 1 2 3 0 3,
  tt 2 1 1 2 2 2 2 1 2,
  tt 2 1 1 3 0 3 3 0 2,
  tt 1 2 1 2 2 0 1 2 0,
  tt 1 2 1 0 2 1 0 2 2,
  tt 1 2 1 2 2 1 2 2 0,
  tt 1 2 1 0 2 2 1 2 2,
  tt 2 (-2) 2 2 (-1) 2 3 (-1) 2,
  tt 2 (-2) 2 3 (-1) 2 3 (-2) 2,
  tt 2 (-2) 2 2 (-2) 3 2 (-1) 3,
  tt 2 (-2) 2 2 (-1) 3 2 (-1) 2,
  tt 4 (-2) 2 3 (-2) 2 3 (-1) 2,
  tt 4 (-2) 2 3 (-1) 2 4 (-1) 2,
  tt 4 (-2) 2 3 (-2) 3 3 (-2) 2,
  tt 4 (-2) 2 4 (-2) 3 3 (-2) 3,
  tt 0 0 2 0 0 1 1 0 1,
  tt 0 0 2 1 0 1 1 0 2,
  tt 0 0 2 1 0 2 1 1 2,
  tt 0 0 2 1 1 2 0 1 2,
  tt 1 0 2 1 0 1 2 (-1) 2,
  tt 1 0 2 2 (-1) 2 2 (-1) 3,
  tt 4 0 2 3 (-1) 2 3 0 2,
  tt 4 0 2 4 (-1) 2 3 (-1) 2,
  tt 4 0 2 4 (-1) 3 4 (-1) 2,
  tt 4 0 2 4 0 3 4 (-1) 3,
  tt 1 1 2 1 0 2 2 (-1) 3,
  tt 1 1 2 2 (-1) 3 2 0 3,
  tt 2 1 2 1 1 2 2 0 3,
  tt 2 1 2 2 0 3 3 0 3,
  tt 0 2 2 0 1 1 0 1 2,
  tt 0 2 2 0 2 1 0 1 1,
  tt 0 2 2 0 1 2 1 1 2,
  tt 0 2 2 1 1 2 1 2 2,
  tt 2 2 2 1 2 1 1 2 2,
  tt 2 2 2 2 2 1 1 2 1,
  tt 2 2 2 1 1 2 2 1 2,
  tt 2 2 2 1 2 2 1 1 2,
  tt 3 (-2) 3 2 (-2) 2 3 (-2) 2,
  tt 3 (-2) 3 2 (-2) 3 2 (-2) 2,
  tt 3 (-2) 3 4 (-2) 3 4 (-2) 4,
  tt 3 (-2) 3 4 (-2) 4 3 (-2) 4,
  tt 2 (-1) 3 2 (-2) 3 2 (-2) 4,
  tt 2 (-1) 3 2 (-2) 4 2 (-1) 4,
  tt 4 (-1) 3 4 (-2) 2 4 (-1) 2,
  tt 4 (-1) 3 4 (-2) 3 4 (-2) 2,
  tt 4 (-1) 3 4 0 3 4 0 4,
  tt 4 (-1) 3 4 0 4 4 (-1) 4,
  tt 3 0 3 4 0 2 3 0 2,
  tt 3 0 3 2 0 3 2 0 4,
  tt 3 0 3 4 0 3 4 0 2,
  tt 3 0 3 2 0 4 3 0 4,
  tt 2 (-2) 4 2 (-2) 3 3 (-2) 3,
  tt 2 (-2) 4 3 (-2) 3 3 (-2) 4,
  tt 2 (-2) 4 3 (-2) 4 3 (-1) 4,
  tt 2 (-2) 4 3 (-1) 4 2 (-1) 4,
  tt 4 (-2) 4 4 (-2) 3 4 (-1) 3,
  tt 4 (-2) 4 4 (-1) 3 4 (-1) 4,
  tt 4 (-2) 4 3 (-1) 4 3 (-2) 4,
  tt 4 (-2) 4 4 (-1) 4 3 (-1) 4,
  tt 2 0 4 2 (-1) 3 2 (-1) 4,
  tt 2 0 4 2 0 3 2 (-1) 3,
  tt 2 0 4 2 (-1) 4 3 (-1) 4,
  tt 2 0 4 3 (-1) 4 3 0 4,
  tt 4 0 4 3 0 3 3 0 4,
  tt 4 0 4 4 0 3 3 0 3,
  tt 4 0 4 3 (-1) 4 4 (-1) 4,
  tt 4 0 4 3 0 4 3 (-1) 4]

example : sortedMesh keys9 = want9 := by decide +kernel

/-- Case 10 of `TestManifoldMesh`. -/
def keys10 : List Key := [⟨0, 0, 0⟩, ⟨1, -1, -1⟩]

/-- Expected triangles of case 10. -/
def want10 : List (Tri (BinVOX.Vec ℚ)) := [
  tt 2 (-2) (-2) 2 (-1) (-2) 3 (-1) (-2),
  tt 2 (-2) (-2) 3 (-1) (-2) 3 (-2) (-2),
  tt 2 (-2) (-2) 2 (-2) (-1) 2 (-1) (-1),
  tt 2 (-2) (-2) 2 (-1) (-1) 2 (-1) (-2),
  tt 4 (-2) (-2) 3 (-2) (-2) 3 (-1) (-2),
  tt 4 (-2) (-2) 3 (-1) (-2) 4 (-1) (-2),
  tt 4 (-2) (-2) 3 (-2) (-1) 3 (-2) (-2),
  tt 4 (-2) (-2) 4 (-2) (-1) 3 (-2) (-1),
  tt 2 0 (-2) 3 (-1) (-2) 2 (-1) (-2),
  tt 2 0 (-2) 3 0 (-2) 3 (-1) (-2),
  tt 2 0 (-2) 2 0 (-1) 3 0 (-1),
  tt 2 0 (-2) 3 0 (-1) 3 0 (-2),
  tt 4 0 (-2) 3 (-1) (-2) 3 0 (-2),
  tt 4 0 (-2) 4 (-1) (-2) 3 (-1) (-2),
  tt 4 0 (-2) 4 (-1) (-1) 4 (-1) (-2),
  tt 4 0 (-2) 4 0 (-1) 4 (-1) (-1),
  tt 3 (-2) (-1) 2 (-2) (-2) 3 (-2) (-2),
  tt 3 (-2) (-1) 2 (-2) (-1) 2 (-2) (-2),
  tt 3 (-2) (-1) 4 (-2) (-1) 4 (-2) 0,
  tt 3 (-2) (-1) 4 (-2) 0 3 (-2) 0,
  tt 2 (-1) (-1) 2 0 (-2) 2 (-1) (-2),
  tt 2 (-1) (-1) 2 (-2) (-1) 2 (-2) 0,
  tt 2 (-1) (-1) 2 0 (-1) 2 0 (-2),
  tt 2 (-1) (-1) 2 (-2) 0 2 (-1) 0,
  tt 2 (-1) (-1) 2 (-1) 0 1 0 1,
  tt 2 (-1) (-1) 1 0 1 1 0 0,
  tt 4 (-1) (-1) 4 (-2) (-2) 4 (-1) (-2),
  tt 4 (-1) (-1) 4 (-2) (-1) 4 (-2) (-2),
  tt 4 (-1) (-1) 4 0 (-1) 4 0 0,
  tt 4 (-1) (-1) 4 0 0 4 (-1) 0,
  tt 2 0 (-1) 2 (-1) (-1) 1 0 0,
  tt 2 0 (-1) 1 0 0 1 1 0,
  tt 3 0 (-1) 4 0 (-2) 3 0 (-2),
  tt 3 0 (-1) 2 0 (-1) 1 1 0,
  tt 3 0 (-1) 4 0 (-1) 4 0 (-2),
  tt 3 0 (-1) 1 1 0 2 1 0,
  tt 2 (-2) 0 2 (-2) (-1) 3 (-2) (-1),
  tt 2 (-2) 0 3 (-2) (-1) 3 (-2) 0,
  tt 2 (-2) 0 3 (-2) 0 3 (-1) 0,
  tt 2 (-2) 0 3 (-1) 0 2 (-1) 0,
  tt 4 (-2) 0 4 (-2) (-1) 4 (-1) (-1),
  tt 4 (-2) 0 4 (-1) (-1) 4 (-1) 0,
  tt 4 (-2) 0 3 (-1) 0 3 (-2) 0,
  tt 4 (-2) 0 4 (-1) 0 3 (-1) 0,
  tt 2 (-1) 0 3 (-1) 0 2 0 1,
  tt 2 (-1) 0 2 0 1 1 0 1,
  tt 3 (-1) 0 3 0 0 2 1 1,
  tt 3 (-1) 0 2 1 1 2 0 1,
  tt 0 0 0 0 1 0 1 1 0,
  tt 0 0 0 1 1 0 1 0 0,
  tt 0 0 0 0 0 1 0 1 1,
  tt 0 0 0 0 1 1 0 1 0,
  tt 3 0 0 3 0 (-1) 2 1 0,
  tt 3 0 0 2 1 0 2 1 1,
  tt 4 0 0 3 0 (-1) 3 0 0,
  tt 4 0 0 4 0 (-1) 3 0 (-1),
  tt 4 0 0 3 (-1) 0 4 (-1) 0,
  tt 4 0 0 3 0 0 3 (-1) 0,
  tt 0 2 0 1 1 0 0 1 0,
  tt 0 2 0 1 2 0 1 1 0,
  tt 0 2 0 0 2 1 1 2 1,
  tt 0 2 0 1 2 1 1 2 0,
  tt 2 2 0 1 1 0 1 2 0,
  tt 2 2 0 2 1 0 1 1 0,
  tt 2 2 0 2 1 1 2 1 0,
  tt 2 2 0 2 2 1 2 1 1,
  tt 1 0 1 0 0 0 1 0 0,
  tt 1 0 1 0 0 1 0 0 0,
  tt 1 0 1 2 0 1 2 0 2,
  tt 1 0 1 2 0 2 1 0 2,
  tt 0 1 1 0 2 0 0 1 0,
  tt 0 1 1 0 0 1 0 0 2,
  tt 0 1 1 0 2 1 0 2 0,
  tt 0 1 1 0 0 2 0 1 2,
  tt 2 1 1 2 2 1 2 2 2,
  tt 2 1 1 2 2 2 2 1 2,
  tt 1 2 1 2 2 0 1 2 0,
  tt 1 2 1 0 2 1 0 2 2,
  tt 1 2 1 2 2 1 2 2 0,
  tt 1 2 1 0 2 2 1 2 2,
  tt 0 0 2 0 0 1 1 0 1,
  tt 0 0 2 1 0 1 1 0 2,
  tt 0 0 2 1 0 2 1 1 2,
  tt 0 0 2 1 1 2 0 1 2,
  tt 2 0 2 2 0 1 2 1 1,
  tt 2 0 2 2 1 1 2 1 2,
  tt 2 0 2 1 1 2 1 0 2,
  tt 2 0 2 2 1 2 1 1 2,
  tt 0 2 2 0 1 1 0 1 2,
  tt 0 2 2 0 2 1 0 1 1,
  tt 0 2 2 0 1 2 1 1 2,
  tt 0 2 2 1 1 2 1 2 2,
  tt 2 2 2 1 2 1 1 2 2,
  tt 2 2 2 2 2 1 1 2 1,
  tt 2 2 2 1 1 2 2 1 2,
  tt 2 2 2 1 2 2 1 1 2]

example : sortedMesh keys10 = want10 := by decide +kernel

/-- Case 11 of `TestManifoldMesh`. -/
def keys11 : List Key := [⟨0, 0, 0⟩, ⟨-1, 0, 1⟩]

/-- Expected triangles of case 11. -/
def want11 : List (Tri (BinVOX.Vec ℚ)) := [
  tt 0 0 0 0 1 0 1 1 0,
  tt 0 0 0 1 1 0 1 0 0,
  tt 0 0 0 0 0 1 0 1 1,
  tt 0 0 0 0 1 1 0 1 0,
  tt 2 0 0 1 0 0 1 1 0,
  tt 2 0 0 1 1 0 2 1 0,
  tt 2 0 0 1 0 1 1 0 0,
  tt 2 0 0 2 0 1 1 0 1,
  tt 0 2 0 1 1 0 0 1 0,
  tt 0 2 0 1 2 0 1 1 0,
  tt 0 2 0 0 2 1 1 2 1,
  tt 0 2 0 1 2 1 1 2 0,
  tt 2 2 0 1 1 0 1 2 0,
  tt 2 2 0 2 1 0 1 1 0,
  tt 2 2 0 2 1 1 2 1 0,
  tt 2 2 0 2 2 1 2 1 1,
  tt 1 0 1 0 0 0 1 0 0,
  tt 1 0 1 0 0 1 0 0 0,
  tt 1 0 1 2 0 1 2 0 2,
  tt 1 0 1 2 0 2 1 0 2,
  tt 0 1 1 0 2 0 0 1 0,
  tt 0 1 1 0 2 1 0 2 0,
  tt 2 1 1 2 0 0 2 1 0,
  tt 2 1 1 2 0 1 2 0 0,
  tt 2 1 1 2 2 1 2 2 2,
  tt 2 1 1 2 2 2 2 1 2,
  tt 0 2 1 0 1 1 (-1) 1 2,
  tt 0 2 1 (-1) 1 2 (-1) 2 2,
  tt 1 2 1 2 2 0 1 2 0,
  tt 1 2 1 2 2 1 2 2 0,
  tt (-2) 0 2 (-2) 1 2 (-1) 1 2,
  tt (-2) 0 2 (-1) 1 2 (-1) 0 2,
  tt (-2) 0 2 (-2) 0 3 (-2) 1 3,
  tt (-2) 0 2 (-2) 1 3 (-2) 1 2,
  tt (-1) 0 2 0 1 1 0 0 1,
  tt (-1) 0 2 (-1) 1 2 0 1 1,
  tt 1 0 2 1 1 2 0 1 3,
  tt 1 0 2 0 1 3 0 0 3,
  tt 2 0 2 2 0 1 2 1 1,
  tt 2 0 2 2 1 1 2 1 2,
  tt 2 0 2 1 1 2 1 0 2,
  tt 2 0 2 2 1 2 1 1 2,
  tt (-2) 2 2 (-1) 1 2 (-2) 1 2,
  tt (-2) 2 2 (-1) 2 2 (-1) 1 2,
  tt (-2) 2 2 (-2) 2 3 (-1) 2 3,
  tt (-2) 2 2 (-1) 2 3 (-1) 2 2,
  tt 2 2 2 1 2 1 1 2 2,
  tt 2 2 2 2 2 1 1 2 1,
  tt 2 2 2 1 1 2 2 1 2,
  tt 2 2 2 1 2 2 1 1 2,
  tt (-1) 0 3 0 0 1 1 0 1,
  tt (-1) 0 3 1 0 1 1 0 2,
  tt (-1) 0 3 (-2) 0 2 (-1) 0 2,
  tt (-1) 0 3 (-1) 0 2 0 0 1,
  tt (-1) 0 3 1 0 2 0 0 3,
  tt (-1) 0 3 (-2) 0 3 (-2) 0 2,
  tt (-1) 0 3 0 0 3 0 0 4,
  tt (-1) 0 3 0 0 4 (-1) 0 4,
  tt (-2) 1 3 (-2) 2 2 (-2) 1 2,
  tt (-2) 1 3 (-2) 0 3 (-2) 0 4,
  tt (-2) 1 3 (-2) 2 3 (-2) 2 2,
  tt (-2) 1 3 (-2) 0 4 (-2) 1 4,
  tt 0 1 3 0 2 3 0 2 4,
  tt 0 1 3 0 2 4 0 1 4,
  tt (-1) 2 3 0 2 1 (-1) 2 2,
  tt (-1) 2 3 1 2 1 0 2 1,
  tt (-1) 2 3 1 2 2 1 2 1,
  tt (-1) 2 3 (-2) 2 3 (-2) 2 4,
  tt (-1) 2 3 0 2 3 1 2 2,
  tt (-1) 2 3 (-2) 2 4 (-1) 2 4,
  tt 0 2 3 1 1 2 1 2 2,
  tt 0 2 3 0 1 3 1 1 2,
  tt (-2) 0 4 (-2) 0 3 (-1) 0 3,
  tt (-2) 0 4 (-1) 0 3 (-1) 0 4,
  tt (-2) 0 4 (-1) 0 4 (-1) 1 4,
  tt (-2) 0 4 (-1) 1 4 (-2) 1 4,
  tt 0 0 4 0 0 3 0 1 3,
  tt 0 0 4 0 1 3 0 1 4,
  tt 0 0 4 (-1) 1 4 (-1) 0 4,
  tt 0 0 4 0 1 4 (-1) 1 4,
  tt (-2) 2 4 (-2) 1 3 (-2) 1 4,
  tt (-2) 2 4 (-2) 2 3 (-2) 1 3,
  tt (-2) 2 4 (-2) 1 4 (-1) 1 4,
  tt (-2) 2 4 (-1) 1 4 (-1) 2 4,
  tt 0 2 4 (-1) 2 3 (-1) 2 4,
  tt 0 2 4 0 2 3 (-1) 2 3,
  tt 0 2 4 (-1) 1 4 0 1 4,
  tt 0 2 4 (-1) 2 4 (-1) 1 4]

example : sortedMesh keys11 = want11 := by decide +kernel

/-- Case 12 of `TestManifoldMesh`. -/
def keys12 : List Key := [⟨0, 0, 0⟩, ⟨-1, 1, 1⟩]

/-- Expected triangles of case 12. -/
def want12 : List (Tri (BinVOX.Vec ℚ)) := [
  tt 0 0 0 0 1 0 1 1 0,
  tt 0 0 0 1 1 0 1 0 0,
  tt 0 0 0 0 0 1 0 1 1,
  tt 0 0 0 0 1 1 0 1 0,
  tt 2 0 0 1 0 0 1 1 0,
  tt 2 0 0 1 1 0 2 1 0,
  tt 2 0 0 1 0 1 1 0 0,
  tt 2 0 0 2 0 1 1 0 1,
  tt 0 2 0 1 1 0 0 1 0,
  tt 0 2 0 1 2 0 1 1 0,
  tt 0 2 0 0 2 1 1 2 1,
  tt 0 2 0 1 2 1 1 2 0,
  tt 2 2 0 1 1 0 1 2 0,
  tt 2 2 0 2 1 0 1 1 0,
  tt 2 2 0 2 1 1 2 1 0,
  tt 2 2 0 2 2 1 2 1 1,
  tt 1 0 1 0 0 0 1 0 0,
  tt 1 0 1 0 0 1 0 0 0,
  tt 1 0 1 2 0 1 2 0 2,
  tt 1 0 1 2 0 2 1 0 2,
  tt 0 1 1 0 2 0 0 1 0,
  tt 0 1 1 0 0 1 0 0 2,
  tt 0 1 1 0 2 1 0 2 0,
  tt 0 1 1 0 0 2 0 1 2,
  tt 0 1 1 0 1 2 (-1) 2 3,
  tt 0 1 1 (-1) 2 3 (-1) 2 2,
  tt 2 1 1 2 0 0 2 1 0,
  tt 2 1 1 2 0 1 2 0 0,
  tt 2 1 1 2 2 1 2 2 2,
  tt 2 1 1 2 2 2 2 1 2,
  tt 0 2 1 0 1 1 (-1) 2 2,
  tt 0 2 1 (-1) 2 2 (-1) 3 2,
  tt 1 2 1 2 2 0 1 2 0,
  tt 1 2 1 0 2 1 (-1) 3 2,
  tt 1 2 1 2 2 1 2 2 0,
  tt 1 2 1 (-1) 3 2 0 3 2,
  tt 0 0 2 0 0 1 1 0 1,
  tt 0 0 2 1 0 1 1 0 2,
  tt 0 0 2 1 0 2 1 1 2,
  tt 0 0 2 1 1 2 0 1 2,
  tt 2 0 2 2 0 1 2 1 1,
  tt 2 0 2 2 1 1 2 1 2,
  tt 2 0 2 1 1 2 1 0 2,
  tt 2 0 2 2 1 2 1 1 2,
  tt 0 1 2 1 1 2 0 2 3,
  tt 0 1 2 0 2 3 (-1) 2 3,
  tt 1 1 2 1 2 2 0 3 3,
  tt 1 1 2 0 3 3 0 2 3,
  tt (-2) 2 2 (-2) 3 2 (-1) 3 2,
  tt (-2) 2 2 (-1) 3 2 (-1) 2 2,
  tt (-2) 2 2 (-2) 2 3 (-2) 3 3,
  tt (-2) 2 2 (-2) 3 3 (-2) 3 2,
  tt 1 2 2 1 2 1 0 3 2,
  tt 1 2 2 0 3 2 0 3 3,
  tt 2 2 2 1 2 1 1 2 2,
  tt 2 2 2 2 2 1 1 2 1,
  tt 2 2 2 1 1 2 2 1 2,
  tt 2 2 2 1 2 2 1 1 2,
  tt (-2) 4 2 (-1) 3 2 (-2) 3 2,
  tt (-2) 4 2 (-1) 4 2 (-1) 3 2,
  tt (-2) 4 2 (-2) 4 3 (-1) 4 3,
  tt (-2) 4 2 (-1) 4 3 (-1) 4 2,
  tt 0 4 2 (-1) 3 2 (-1) 4 2,
  tt 0 4 2 0 3 2 (-1) 3 2,
  tt 0 4 2 0 3 3 0 3 2,
  tt 0 4 2 0 4 3 0 3 3,
  tt (-1) 2 3 (-2) 2 2 (-1) 2 2,
  tt (-1) 2 3 (-2) 2 3 (-2) 2 2,
  tt (-1) 2 3 0 2 3 0 2 4,
  tt (-1) 2 3 0 2 4 (-1) 2 4,
  tt (-2) 3 3 (-2) 4 2 (-2) 3 2,
  tt (-2) 3 3 (-2) 2 3 (-2) 2 4,
  tt (-2) 3 3 (-2) 4 3 (-2) 4 2,
  tt (-2) 3 3 (-2) 2 4 (-2) 3 4,
  tt 0 3 3 0 4 3 0 4 4,
  tt 0 3 3 0 4 4 0 3 4,
  tt (-1) 4 3 0 4 2 (-1) 4 2,
  tt (-1) 4 3 (-2) 4 3 (-2) 4 4,
  tt (-1) 4 3 0 4 3 0 4 2,
  tt (-1) 4 3 (-2) 4 4 (-1) 4 4,
  tt (-2) 2 4 (-2) 2 3 (-1) 2 3,
  tt (-2) 2 4 (-1) 2 3 (-1) 2 4,
  tt (-2) 2 4 (-1) 2 4 (-1) 3 4,
  tt (-2) 2 4 (-1) 3 4 (-2) 3 4,
  tt 0 2 4 0 2 3 0 3 3,
  tt 0 2 4 0 3 3 0 3 4,
  tt 0 2 4 (-1) 3 4 (-1) 2 4,
  tt 0 2 4 0 3 4 (-1) 3 4,
  tt (-2) 4 4 (-2) 3 3 (-2) 3 4,
  tt (-2) 4 4 (-2) 4 3 (-2) 3 3,
  tt (-2) 4 4 (-2) 3 4 (-1) 3 4,
  tt (-2) 4 4 (-1) 3 4 (-1) 4 4,
  tt 0 4 4 (-1) 4 3 (-1) 4 4,
  tt 0 4 4 0 4 3 (-1) 4 3,
  tt 0 4 4 (-1) 3 4 0 3 4,
  tt 0 4 4 (-1) 4 4 (-1) 3 4]

example : sortedMesh keys12 = want12 := by decide +kernel

/-- Case 13 of `TestManifoldMesh`. -/
def keys13 : List Key := [⟨0, 0, 0⟩, ⟨-1, 1, -1⟩]

/-- Expected triangles of case 13. -/
def want13 : List (Tri (BinVOX.Vec ℚ)) := [
  tt (-2) 2 (-2) (-2) 3 (-2) (-1) 3 (-2),
  tt (-2) 2 (-2) (-1) 3 (-2) (-1) 2 (-2),
  tt (-2) 2 (-2) (-2) 2 (-1) (-2) 3 (-1),
  tt (-2) 2 (-2) (-2) 3 (-1) (-2) 3 (-2),
  tt 0 2 (-2) (-1) 2 (-2) (-1) 3 (-2),
  tt 0 2 (-2) (-1) 3 (-2) 0 3 (-2),
  tt 0 2 (-2) (-1) 2 (-1) (-1) 2 (-2),
  tt 0 2 (-2) 0 2 (-1) (-1) 2 (-1),
  tt (-2) 4 (-2) (-1) 3 (-2) (-2) 3 (-2),
  tt (-2) 4 (-2) (-1) 4 (-2) (-1) 3 (-2),
  tt (-2) 4 (-2) (-2) 4 (-1) (-1) 4 (-1),
  tt (-2) 4 (-2) (-1) 4 (-1) (-1) 4 (-2),
  tt 0 4 (-2) (-1) 3 (-2) (-1) 4 (-2),
  tt 0 4 (-2) 0 3 (-2) (-1) 3 (-2),
  tt 0 4 (-2) 0 3 (-1) 0 3 (-2),
  tt 0 4 (-2) 0 4 (-1) 0 3 (-1),
  tt (-1) 2 (-1) (-2) 2 (-2) (-1) 2 (-2),
  tt (-1) 2 (-1) (-2) 2 (-1) (-2) 2 (-2),
  tt (-1) 2 (-1) 0 2 (-1) 1 1 0,
  tt (-1) 2 (-1) 1 1 0 0 1 0,
  tt 0 2 (-1) 0 3 (-1) 1 2 0,
  tt 0 2 (-1) 1 2 0 1 1 0,
  tt (-2) 3 (-1) (-2) 4 (-2) (-2) 3 (-2),
  tt (-2) 3 (-1) (-2) 2 (-1) (-2) 2 0,
  tt (-2) 3 (-1) (-2) 4 (-1) (-2) 4 (-2),
  tt (-2) 3 (-1) (-2) 2 0 (-2) 3 0,
  tt 0 3 (-1) 0 2 (-2) 0 3 (-2),
  tt 0 3 (-1) 0 2 (-1) 0 2 (-2),
  tt 0 3 (-1) 0 4 (-1) 0 4 0,
  tt 0 3 (-1) 0 3 0 1 2 1,
  tt 0 3 (-1) 0 4 0 0 3 0,
  tt 0 3 (-1) 1 2 1 1 2 0,
  tt (-1) 4 (-1) 0 4 (-2) (-1) 4 (-2),
  tt (-1) 4 (-1) (-2) 4 (-1) (-2) 4 0,
  tt (-1) 4 (-1) 0 4 (-1) 0 4 (-2),
  tt (-1) 4 (-1) (-2) 4 0 (-1) 4 0,
  tt 0 0 0 0 1 0 1 1 0,
  tt 0 0 0 1 1 0 1 0 0,
  tt 0 0 0 0 0 1 0 1 1,
  tt 0 0 0 0 1 1 0 1 0,
  tt 2 0 0 1 0 0 1 1 0,
  tt 2 0 0 1 1 0 2 1 0,
  tt 2 0 0 1 0 1 1 0 0,
  tt 2 0 0 2 0 1 1 0 1,
  tt (-2) 2 0 (-2) 2 (-1) (-1) 2 (-1),
  tt (-2) 2 0 (-1) 2 (-1) (-1) 2 0,
  tt (-2) 2 0 (-1) 2 0 (-1) 3 0,
  tt (-2) 2 0 (-1) 3 0 (-2) 3 0,
  tt (-1) 2 0 (-1) 2 (-1) 0 1 0,
  tt (-1) 2 0 0 1 0 0 1 1,
  tt 2 2 0 1 1 0 1 2 0,
  tt 2 2 0 2 1 0 1 1 0,
  tt 2 2 0 2 1 1 2 1 0,
  tt 2 2 0 2 2 1 2 1 1,
  tt (-1) 3 0 (-1) 2 0 0 1 1,
  tt (-1) 3 0 0 1 1 0 2 1,
  tt 0 3 0 (-1) 3 0 0 2 1,
  tt 0 3 0 0 2 1 1 2 1,
  tt (-2) 4 0 (-2) 3 (-1) (-2) 3 0,
  tt (-2) 4 0 (-2) 4 (-1) (-2) 3 (-1),
  tt (-2) 4 0 (-2) 3 0 (-1) 3 0,
  tt (-2) 4 0 (-1) 3 0 (-1) 4 0,
  tt 0 4 0 (-1) 4 (-1) (-1) 4 0,
  tt 0 4 0 0 4 (-1) (-1) 4 (-1),
  tt 0 4 0 (-1) 3 0 0 3 0,
  tt 0 4 0 (-1) 4 0 (-1) 3 0,
  tt 1 0 1 0 0 0 1 0 0,
  tt 1 0 1 0 0 1 0 0 0,
  tt 1 0 1 2 0 1 2 0 2,
  tt 1 0 1 2 0 2 1 0 2,
  tt 0 1 1 0 0 1 0 0 2,
  tt 0 1 1 0 0 2 0 1 2,
  tt 2 1 1 2 0 0 2 1 0,
  tt 2 1 1 2 0 1 2 0 0,
  tt 2 1 1 2 2 1 2 2 2,
  tt 2 1 1 2 2 2 2 1 2,
  tt 1 2 1 2 2 0 1 2 0,
  tt 1 2 1 0 2 1 0 2 2,
  tt 1 2 1 2 2 1 2 2 0,
  tt 1 2 1 0 2 2 1 2 2,
  tt 0 0 2 0 0 1 1 0 1,
  tt 0 0 2 1 0 1 1 0 2,
  tt 0 0 2 1 0 2 1 1 2,
  tt 0 0 2 1 1 2 0 1 2,
  tt 2 0 2 2 0 1 2 1 1,
  tt 2 0 2 2 1 1 2 1 2,
  tt 2 0 2 1 1 2 1 0 2,
  tt 2 0 2 2 1 2 1 1 2,
  tt 0 2 2 0 1 1 0 1 2,
  tt 0 2 2 0 2 1 0 1 1,
  tt 0 2 2 0 1 2 1 1 2,
  tt 0 2 2 1 1 2 1 2 2,
  tt 2 2 2 1 2 1 1 2 2,
  tt 2 2 2 2 2 1 1 2 1,
  tt 2 2 2 1 1 2 2 1 2,
  tt 2 2 2 1 2 2 1 1 2]

example : sortedMesh keys13 = want13 := by decide +kernel

/-- Case 14 of `TestManifoldMesh`. -/
def keys14 : List Key := [⟨0, 0, 0⟩, ⟨-1, -1, 0⟩]

/-- Expected triangles of case 14. -/
def want14 : List (Tri (BinVOX.Vec ℚ)) := [
  tt (-2) (-2) 0 (-2) (-1) 0 (-1) (-1) 0,
  tt (-2) (-2) 0 (-1) (-1) 0 (-1) (-2) 0,
  tt (-2) (-2) 0 (-2) (-2) 1 (-2) (-1) 1,
  tt (-2) (-2) 0 (-2) (-1) 1 (-2) (-1) 0,
  tt 0 (-2) 0 (-1) (-2) 0 (-1) (-1) 0,
  tt 0 (-2) 0 (-1) (-1) 0 0 (-1) 0,
  tt 0 (-2) 0 (-1) (-2) 1 (-1) (-2) 0,
  tt 0 (-2) 0 0 (-2) 1 (-1) (-2) 1,
  tt (-1) (-1) 0 (-1) 0 0 0 1 0,
  tt (-1) (-1) 0 1 0 0 0 (-1) 0,
  tt (-1) (-1) 0 0 1 0 1 1 0,
  tt (-1) (-1) 0 1 1 0 1 0 0,
  tt (-2) 0 0 (-1) (-1) 0 (-2) (-1) 0,
  tt (-2) 0 0 (-1) 0 0 (-1) (-1) 0,
  tt (-2) 0 0 (-2) 0 1 (-1) 0 1,
  tt (-2) 0 0 (-1) 0 1 (-1) 0 0,
  tt (-1) 0 0 (-1) 0 1 0 1 1,
  tt (-1) 0 0 0 1 1 0 1 0,
  tt 1 0 0 0 (-1) 1 0 (-1) 0,
  tt 1 0 0 1 0 1 0 (-1) 1,
  tt 2 0 0 1 0 0 1 1 0,
  tt 2 0 0 1 1 0 2 1 0,
  tt 2 0 0 1 0 1 1 0 0,
  tt 2 0 0 2 0 1 1 0 1,
  tt 0 2 0 1 1 0 0 1 0,
  tt 0 2 0 1 2 0 1 1 0,
  tt 0 2 0 0 2 1 1 2 1,
  tt 0 2 0 1 2 1 1 2 0,
  tt 2 2 0 1 1 0 1 2 0,
  tt 2 2 0 2 1 0 1 1 0,
  tt 2 2 0 2 1 1 2 1 0,
  tt 2 2 0 2 2 1 2 1 1,
  tt (-1) (-2) 1 (-2) (-2) 0 (-1) (-2) 0,
  tt (-1) (-2) 1 (-2) (-2) 1 (-2) (-2) 0,
  tt (-1) (-2) 1 0 (-2) 1 0 (-2) 2,
  tt (-1) (-2) 1 0 (-2) 2 (-1) (-2) 2,
  tt (-2) (-1) 1 (-2) 0 0 (-2) (-1) 0,
  tt (-2) (-1) 1 (-2) (-2) 1 (-2) (-2) 2,
  tt (-2) (-1) 1 (-2) 0 1 (-2) 0 0,
  tt (-2) (-1) 1 (-2) (-2) 2 (-2) (-1) 2,
  tt 0 (-1) 1 0 (-2) 0 0 (-1) 0,
  tt 0 (-1) 1 0 (-2) 1 0 (-2) 0,
  tt (-1) 0 1 (-2) 0 1 (-2) 0 2,
  tt (-1) 0 1 (-2) 0 2 (-1) 0 2,
  tt 1 0 1 2 0 1 2 0 2,
  tt 1 0 1 2 0 2 1 0 2,
  tt 0 1 1 0 2 0 0 1 0,
  tt 0 1 1 0 2 1 0 2 0,
  tt 2 1 1 2 0 0 2 1 0,
  tt 2 1 1 2 0 1 2 0 0,
  tt 2 1 1 2 2 1 2 2 2,
  tt 2 1 1 2 2 2 2 1 2,
  tt 1 2 1 2 2 0 1 2 0,
  tt 1 2 1 0 2 1 0 2 2,
  tt 1 2 1 2 2 1 2 2 0,
  tt 1 2 1 0 2 2 1 2 2,
  tt (-2) (-2) 2 (-2) (-2) 1 (-1) (-2) 1,
  tt (-2) (-2) 2 (-1) (-2) 1 (-1) (-2) 2,
  tt (-2) (-2) 2 (-1) (-2) 2 (-1) (-1) 2,
  tt (-2) (-2) 2 (-1) (-1) 2 (-2) (-1) 2,
  tt 0 (-2) 2 0 (-2) 1 0 (-1) 1,
  tt 0 (-2) 2 0 (-1) 1 0 (-1) 2,
  tt 0 (-2) 2 (-1) (-1) 2 (-1) (-2) 2,
  tt 0 (-2) 2 0 (-1) 2 (-1) (-1) 2,
  tt 0 (-1) 2 0 (-1) 1 1 0 1,
  tt 0 (-1) 2 1 0 1 1 0 2,
  tt (-2) 0 2 (-2) (-1) 1 (-2) (-1) 2,
  tt (-2) 0 2 (-2) 0 1 (-2) (-1) 1,
  tt (-2) 0 2 (-2) (-1) 2 (-1) (-1) 2,
  tt (-2) 0 2 (-1) (-1) 2 (-1) 0 2,
  tt 2 0 2 2 0 1 2 1 1,
  tt 2 0 2 2 1 1 2 1 2,
  tt 2 0 2 1 1 2 1 0 2,
  tt 2 0 2 2 1 2 1 1 2,
  tt 0 1 2 (-1) 0 1 (-1) 0 2,
  tt 0 1 2 0 1 1 (-1) 0 1,
  tt 1 1 2 (-1) (-1) 2 0 (-1) 2,
  tt 1 1 2 0 (-1) 2 1 0 2,
  tt 1 1 2 (-1) 0 2 (-1) (-1) 2,
  tt 1 1 2 0 1 2 (-1) 0 2,
  tt 0 2 2 0 1 1 0 1 2,
  tt 0 2 2 0 2 1 0 1 1,
  tt 0 2 2 0 1 2 1 1 2,
  tt 0 2 2 1 1 2 1 2 2,
  tt 2 2 2 1 2 1 1 2 2,
  tt 2 2 2 2 2 1 1 2 1,
  tt 2 2 2 1 1 2 2 1 2,
  tt 2 2 2 1 2 2 1 1 2]

example : sortedMesh keys14 = want14 := by decide +kernel

/-- Case 15 of `TestManifoldMesh`. -/
def keys15 : List Key := [⟨0, 0, 0⟩, ⟨-1, -1, 1⟩]

/-- Expected triangles of case 15. -/
def want15 : List (Tri (BinVOX.Vec ℚ)) := [
  tt 0 0 0 0 1 0 1 1 0,
  tt 0 0 0 1 1 0 1 0 0,
  tt 0 0 0 0 0 1 0 1 1,
  tt 0 0 0 0 1 1 0 1 0,
  tt 2 0 0 1 0 0 1 1 0,
  tt 2 0 0 1 1 0 2 1 0,
  tt 2 0 0 1 0 1 1 0 0,
  tt 2 0 0 2 0 1 1 0 1,
  tt 0 2 0 1 1 0 0 1 0,
  tt 0 2 0 1 2 0 1 1 0,
  tt 0 2 0 0 2 1 1 2 1,
  tt 0 2 0 1 2 1 1 2 0,
  tt 2 2 0 1 1 0 1 2 0,
  tt 2 2 0 2 1 0 1 1 0,
  tt 2 2 0 2 1 1 2 1 0,
  tt 2 2 0 2 2 1 2 1 1,
  tt 0 0 1 1 0 1 0 (-1) 2,
  tt 0 0 1 0 (-1) 2 (-1) (-1) 2,
  tt 1 0 1 0 0 0 1 0 0,
  tt 1 0 1 0 0 1 0 0 0,
  tt 1 0 1 2 0 1 2 0 2,
  tt 1 0 1 1 0 2 0 (-1) 3,
  tt 1 0 1 2 0 2 1 0 2,
  tt 1 0 1 0 (-1) 3 0 (-1) 2,
  tt 0 1 1 0 2 0 0 1 0,
  tt 0 1 1 0 0 1 (-1) (-1) 2,
  tt 0 1 1 0 2 1 0 2 0,
  tt 0 1 1 (-1) (-1) 2 (-1) 0 2,
  tt 2 1 1 2 0 0 2 1 0,
  tt 2 1 1 2 0 1 2 0 0,
  tt 2 1 1 2 2 1 2 2 2,
  tt 2 1 1 2 2 2 2 1 2,
  tt 1 2 1 2 2 0 1 2 0,
  tt 1 2 1 0 2 1 0 2 2,
  tt 1 2 1 2 2 1 2 2 0,
  tt 1 2 1 0 2 2 1 2 2,
  tt (-2) (-2) 2 (-2) (-1) 2 (-1) (-1) 2,
  tt (-2) (-2) 2 (-1) (-1) 2 (-1) (-2) 2,
  tt (-2) (-2) 2 (-2) (-2) 3 (-2) (-1) 3,
  tt (-2) (-2) 2 (-2) (-1) 3 (-2) (-1) 2,
  tt 0 (-2) 2 (-1) (-2) 2 (-1) (-1) 2,
  tt 0 (-2) 2 (-1) (-1) 2 0 (-1) 2,
  tt 0 (-2) 2 (-1) (-2) 3 (-1) (-2) 2,
  tt 0 (-2) 2 0 (-2) 3 (-1) (-2) 3,
  tt (-2) 0 2 (-1) (-1) 2 (-2) (-1) 2,
  tt (-2) 0 2 (-1) 0 2 (-1) (-1) 2,
  tt (-2) 0 2 (-2) 0 3 (-1) 0 3,
  tt (-2) 0 2 (-1) 0 3 (-1) 0 2,
  tt 1 0 2 1 1 2 0 0 3,
  tt 1 0 2 0 0 3 0 (-1) 3,
  tt 2 0 2 2 0 1 2 1 1,
  tt 2 0 2 2 1 1 2 1 2,
  tt 2 0 2 1 1 2 1 0 2,
  tt 2 0 2 2 1 2 1 1 2,
  tt 0 1 2 0 1 1 (-1) 0 2,
  tt 0 1 2 (-1) 0 2 (-1) 0 3,
  tt 1 1 2 0 1 2 (-1) 0 3,
  tt 1 1 2 (-1) 0 3 0 0 3,
  tt 0 2 2 0 1 1 0 1 2,
  tt 0 2 2 0 2 1 0 1 1,
  tt 0 2 2 0 1 2 1 1 2,
  tt 0 2 2 1 1 2 1 2 2,
  tt 2 2 2 1 2 1 1 2 2,
  tt 2 2 2 2 2 1 1 2 1,
  tt 2 2 2 1 1 2 2 1 2,
  tt 2 2 2 1 2 2 1 1 2,
  tt (-1) (-2) 3 (-2) (-2) 2 (-1) (-2) 2,
  tt (-1) (-2) 3 (-2) (-2) 3 (-2) (-2) 2,
  tt (-1) (-2) 3 0 (-2) 3 0 (-2) 4,
  tt (-1) (-2) 3 0 (-2) 4 (-1) (-2) 4,
  tt (-2) (-1) 3 (-2) 0 2 (-2) (-1) 2,
  tt (-2) (-1) 3 (-2) (-2) 3 (-2) (-2) 4,
  tt (-2) (-1) 3 (-2) 0 3 (-2) 0 2,
  tt (-2) (-1) 3 (-2) (-2) 4 (-2) (-1) 4,
  tt 0 (-1) 3 0 (-2) 2 0 (-1) 2,
  tt 0 (-1) 3 0 (-2) 3 0 (-2) 2,
  tt 0 (-1) 3 0 0 3 0 0 4,
  tt 0 (-1) 3 0 0 4 0 (-1) 4,
  tt (-1) 0 3 (-2) 0 3 (-2) 0 4,
  tt (-1) 0 3 (-2) 0 4 (-1) 0 4,
  tt (-2) (-2) 4 (-2) (-2) 3 (-1) (-2) 3,
  tt (-2) (-2) 4 (-1) (-2) 3 (-1) (-2) 4,
  tt (-2) (-2) 4 (-1) (-2) 4 (-1) (-1) 4,
  tt (-2) (-2) 4 (-1) (-1) 4 (-2) (-1) 4,
  tt 0 (-2) 4 0 (-2) 3 0 (-1) 3,
  tt 0 (-2) 4 0 (-1) 3 0 (-1) 4,
  tt 0 (-2) 4 (-1) (-1) 4 (-1) (-2) 4,
  tt 0 (-2) 4 0 (-1) 4 (-1) (-1) 4,
  tt (-2) 0 4 (-2) (-1) 3 (-2) (-1) 4,
  tt (-2) 0 4 (-2) 0 3 (-2) (-1) 3,
  tt (-2) 0 4 (-2) (-1) 4 (-1) (-1) 4,
  tt (-2) 0 4 (-1) (-1) 4 (-1) 0 4,
  tt 0 0 4 (-1) 0 3 (-1) 0 4,
  tt 0 0 4 0 0 3 (-1) 0 3,
  tt 0 0 4 (-1) (-1) 4 0 (-1) 4,
  tt 0 0 4 (-1) 0 4 (-1) (-1) 4]

example : sortedMesh keys15 = want15 := by decide +kernel

/-- Case 16 of `TestManifoldMesh`. -/
def keys16 : List Key := [⟨0, 0, 0⟩, ⟨-1, -1, -1⟩]

/-- Expected triangles of case 16. -/
def want16 : List (Tri (BinVOX.Vec ℚ)) := [
  tt (-2) (-2) (-2) (-2) (-1) (-2) (-1) (-1) (-2),
  tt (-2) (-2) (-2) (-1) (-1) (-2) (-1) (-2) (-2),
  tt (-2) (-2) (-2) (-2) (-2) (-1) (-2) (-1) (-1),
  tt (-2) (-2) (-2) (-2) (-1) (-1) (-2) (-1) (-2),
  tt 0 (-2) (-2) (-1) (-2) (-2) (-1) (-1) (-2),
  tt 0 (-2) (-2) (-1) (-1) (-2) 0 (-1) (-2),
  tt 0 (-2) (-2) (-1) (-2) (-1) (-1) (-2) (-2),
  tt 0 (-2) (-2) 0 (-2) (-1) (-1) (-2) (-1),
  tt (-2) 0 (-2) (-1) (-1) (-2) (-2) (-1) (-2),
  tt (-2) 0 (-2) (-1) 0 (-2) (-1) (-1) (-2),
  tt (-2) 0 (-2) (-2) 0 (-1) (-1) 0 (-1),
  tt (-2) 0 (-2) (-1) 0 (-1) (-1) 0 (-2),
  tt 0 0 (-2) (-1) (-1) (-2) (-1) 0 (-2),
  tt 0 0 (-2) 0 (-1) (-2) (-1) (-1) (-2),
  tt 0 0 (-2) 0 (-1) (-1) 0 (-1) (-2),
  tt 0 0 (-2) 0 0 (-1) 0 (-1) (-1),
  tt (-1) (-2) (-1) (-2) (-2) (-2) (-1) (-2) (-2),
  tt (-1) (-2) (-1) (-2) (-2) (-1) (-2) (-2) (-2),
  tt (-1) (-2) (-1) 0 (-2) (-1) 0 (-2) 0,
  tt (-1) (-2) (-1) 0 (-2) 0 (-1) (-2) 0,
  tt (-2) (-1) (-1) (-2) 0 (-2) (-2) (-1) (-2),
  tt (-2) (-1) (-1) (-2) (-2) (-1) (-2) (-2) 0,
  tt (-2) (-1) (-1) (-2) 0 (-1) (-2) 0 (-2),
  tt (-2) (-1) (-1) (-2) (-2) 0 (-2) (-1) 0,
  tt 0 (-1) (-1) 0 (-2) (-2) 0 (-1) (-2),
  tt 0 (-1) (-1) 0 (-2) (-1) 0 (-2) (-2),
  tt 0 (-1) (-1) 0 0 (-1) 1 1 0,
  tt 0 (-1) (-1) 1 1 0 1 0 0,
  tt (-1) 0 (-1) 0 0 (-2) (-1) 0 (-2),
  tt (-1) 0 (-1) (-2) 0 (-1) (-2) 0 0,
  tt (-1) 0 (-1) 0 0 (-1) 0 0 (-2),
  tt (-1) 0 (-1) (-2) 0 0 (-1) 0 0,
  tt (-1) 0 (-1) (-1) 0 0 0 1 1,
  tt (-1) 0 (-1) 0 1 1 0 1 0,
  tt 0 0 (-1) (-1) 0 (-1) 0 1 0,
  tt 0 0 (-1) 0 1 0 1 1 0,
  tt (-2) (-2) 0 (-2) (-2) (-1) (-1) (-2) (-1),
  tt (-2) (-2) 0 (-1) (-2) (-1) (-1) (-2) 0,
  tt (-2) (-2) 0 (-1) (-2) 0 (-1) (-1) 0,
  tt (-2) (-2) 0 (-1) (-1) 0 (-2) (-1) 0,
  tt 0 (-2) 0 0 (-2) (-1) 0 (-1) (-1),
  tt 0 (-2) 0 0 (-1) (-1) 0 (-1) 0,
  tt 0 (-2) 0 (-1) (-1) 0 (-1) (-2) 0,
  tt 0 (-2) 0 0 (-1) 0 (-1) (-1) 0,
  tt (-1) (-1) 0 0 (-1) 0 1 0 1,
  tt (-1) (-1) 0 1 0 1 0 0 1,
  tt 0 (-1) 0 0 (-1) (-1) 1 0 0,
  tt 0 (-1) 0 1 0 0 1 0 1,
  tt (-2) 0 0 (-2) (-1) (-1) (-2) (-1) 0,
  tt (-2) 0 0 (-2) 0 (-1) (-2) (-1) (-1),
  tt (-2) 0 0 (-2) (-1) 0 (-1) (-1) 0,
  tt (-2) 0 0 (-1) (-1) 0 (-1) 0 0,
  tt (-1) 0 0 (-1) (-1) 0 0 0 1,
  tt (-1) 0 0 0 0 1 0 1 1,
  tt 2 0 0 1 0 0 1 1 0,
  tt 2 0 0 1 1 0 2 1 0,
  tt 2 0 0 1 0 1 1 0 0,
  tt 2 0 0 2 0 1 1 0 1,
  tt 0 2 0 1 1 0 0 1 0,
  tt 0 2 0 1 2 0 1 1 0,
  tt 0 2 0 0 2 1 1 2 1,
  tt 0 2 0 1 2 1 1 2 0,
  tt 2 2 0 1 1 0 1 2 0,
  tt 2 2 0 2 1 0 1 1 0,
  tt 2 2 0 2 1 1 2 1 0,
  tt 2 2 0 2 2 1 2 1 1,
  tt 1 0 1 2 0 1 2 0 2,
  tt 1 0 1 2 0 2 1 0 2,
  tt 0 1 1 0 2 0 0 1 0,
  tt 0 1 1 0 0 1 0 0 2,
  tt 0 1 1 0 2 1 0 2 0,
  tt 0 1 1 0 0 2 0 1 2,
  tt 2 1 1 2 0 0 2 1 0,
  tt 2 1 1 2 0 1 2 0 0,
  tt 2 1 1 2 2 1 2 2 2,
  tt 2 1 1 2 2 2 2 1 2,
  tt 1 2 1 2 2 0 1 2 0,
  tt 1 2 1 0 2 1 0 2 2,
  tt 1 2 1 2 2 1 2 2 0,
  tt 1 2 1 0 2 2 1 2 2,
  tt 0 0 2 0 0 1 1 0 1,
  tt 0 0 2 1 0 1 1 0 2,
  tt 0 0 2 1 0 2 1 1 2,
  tt 0 0 2 1 1 2 0 1 2,
  tt 2 0 2 2 0 1 2 1 1,
  tt 2 0 2 2 1 1 2 1 2,
  tt 2 0 2 1 1 2 1 0 2,
  tt 2 0 2 2 1 2 1 1 2,
  tt 0 2 2 0 1 1 0 1 2,
  tt 0 2 2 0 2 1 0 1 1,
  tt 0 2 2 0 1 2 1 1 2,
  tt 0 2 2 1 1 2 1 2 2,
  tt 2 2 2 1 2 1 1 2 2,
  tt 2 2 2 2 2 1 1 2 1,
  tt 2 2 2 1 1 2 2 1 2,
  tt 2 2 2 1 2 2 1 1 2]

example : sortedMesh keys16 = want16 := by decide +kernel

/-- Case 17 of `TestManifoldMesh`. -/
def keys17 : List Key := [⟨0, 0, 0⟩, ⟨0, 0, 0⟩]

/-- Expected triangles of case 17. -/
def want17 : List (Tri (BinVOX.Vec ℚ)) := [
  tt 0 0 0 0 1 0 1 1 0,
  tt 0 0 0 1 1 0 1 0 0,
  tt 0 0 0 0 0 1 0 1 1,
  tt 0 0 0 0 1 1 0 1 0,
  tt 2 0 0 1 0 0 1 1 0,
  tt 2 0 0 1 1 0 2 1 0,
  tt 2 0 0 1 0 1 1 0 0,
  tt 2 0 0 2 0 1 1 0 1,
  tt 0 2 0 1 1 0 0 1 0,
  tt 0 2 0 1 2 0 1 1 0,
  tt 0 2 0 0 2 1 1 2 1,
  tt 0 2 0 1 2 1 1 2 0,
  tt 2 2 0 1 1 0 1 2 0,
  tt 2 2 0 2 1 0 1 1 0,
  tt 2 2 0 2 1 1 2 1 0,
  tt 2 2 0 2 2 1 2 1 1,
  tt 1 0 1 0 0 0 1 0 0,
  tt 1 0 1 0 0 1 0 0 0,
  tt 1 0 1 2 0 1 2 0 2,
  tt 1 0 1 2 0 2 1 0 2,
  tt 0 1 1 0 2 0 0 1 0,
  tt 0 1 1 0 0 1 0 0 2,
  tt 0 1 1 0 2 1 0 2 0,
  tt 0 1 1 0 0 2 0 1 2,
  tt 2 1 1 2 0 0 2 1 0,
  tt 2 1 1 2 0 1 2 0 0,
  tt 2 1 1 2 2 1 2 2 2,
  tt 2 1 1 2 2 2 2 1 2,
  tt 1 2 1 2 2 0 1 2 0,
  tt 1 2 1 0 2 1 0 2 2,
  tt 1 2 1 2 2 1 2 2 0,
  tt 1 2 1 0 2 2 1 2 2,
  tt 0 0 2 0 0 1 1 0 1,
  tt 0 0 2 1 0 1 1 0 2,
  tt 0 0 2 1 0 2 1 1 2,
  tt 0 0 2 1 1 2 0 1 2,
  tt 2 0 2 2 0 1 2 1 1,
  tt 2 0 2 2 1 1 2 1 2,
  tt 2 0 2 1 1 2 1 0 2,
  tt 2 0 2 2 1 2 1 1 2,
  tt 0 2 2 0 1 1 0 1 2,
  tt 0 2 2 0 2 1 0 1 1,
  tt 0 2 2 0 1 2 1 1 2,
  tt 0 2 2 1 1 2 1 2 2,
  tt 2 2 2 1 2 1 1 2 2,
  tt 2 2 2 2 2 1 1 2 1,
  tt 2 2 2 1 1 2 2 1 2,
  tt 2 2 2 1 2 2 1 1 2]

example : sortedMesh keys17 = want17 := by decide +kernel

end Validate
end StlDice
