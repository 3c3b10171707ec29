import Verif.Spec.VoxelMesh
import Verif.Spec.VoxelizeFloat
import Verif.Spec.StlText
import Mathlib.Order.Monotone.Defs

/-! # Meshes whose long edges run along the axes (for meshes of voxels in float64 and float32) -/

namespace StlDice
namespace Spec
open BinVOX

/-- The edge runs along an axis. -/
def AxisEdge (e : Vec ℚ × Vec ℚ) : Prop :=
  (e.1.Y = e.2.Y ∧ e.1.Z = e.2.Z) ∨ (e.1.X = e.2.X ∧ e.1.Z = e.2.Z) ∨ (e.1.X = e.2.X ∧ e.1.Y = e.2.Y)

/-- A closed surface in which a corner may lie inside an edge of another triangle if that edge runs along an axis: a mesher
    that joins unit faces to larger rectangles makes such surfaces. -/
def ClosedAfterAxisCuts (ts : List (Tri (Vec ℚ))) : Prop :=
  ∃ cuts : List (List (Vec ℚ)), cuts.length = (ts.flatMap triEdges).length ∧
    (∀ x ∈ (ts.flatMap triEdges).zip cuts, Along x.1.2 x.1.1 x.2 ∧ (x.2 = [] ∨ AxisEdge x.1)) ∧
    ∀ u v, (((ts.flatMap triEdges).zip cuts).flatMap fun x => pieces x.1.2 x.1.1 x.2).count (u, v) =
      (((ts.flatMap triEdges).zip cuts).flatMap fun x => pieces x.1.2 x.1.1 x.2).count (v, u)

/-- The point moved along each axis for itself. -/
def onAxes (f g h : ℚ → ℚ) (p : Vec ℚ) : Vec ℚ := ⟨f p.X, g p.Y, h p.Z⟩

/-- The triangles with their numbers as exact numbers. -/
def exactTris (ts : List (Tri (Vec F64))) : List (Tri (Vec ℚ)) := ts.map (moveTri exactVec)

/-- What is assumed of `gl.NewVoxelMesh` in float64: the numbers it computes, taken exactly, are a mesh of the skin of the
    unit cubes, in which corners lie inside edges only along the axes. -/
def VoxelMesher (mesh : List Key → List (Tri (Vec F64))) (ks : List Key) : Prop :=
  IsVoxelMesh ks (exactTris (mesh ks)) ∧ ClosedAfterAxisCuts (exactTris (mesh ks))

end Spec
end StlDice
