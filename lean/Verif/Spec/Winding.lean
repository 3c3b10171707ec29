import Verif.Spec.Mesh

/-! # Inside and outside of a surface: rays to the right and how often they leave -/

namespace StlDice.Spec
open BinVOX

/-- The point of the triangle with barycentric coordinates `a`, `c`, `d`. -/
def blend (t : Tri (Vec ℚ)) (a c d : ℚ) : Vec ℚ :=
  ⟨a * t.V1.X + c * t.V2.X + d * t.V3.X, a * t.V1.Y + c * t.V2.Y + d * t.V3.Y, a * t.V1.Z + c * t.V2.Z + d * t.V3.Z⟩

/-- The ray from `p` in the direction of x meets the triangle. -/
def RayMeets (p : Vec ℚ) (t : Tri (Vec ℚ)) : Prop :=
  ∃ s a c d : ℚ, 0 ≤ s ∧ 0 ≤ a ∧ 0 ≤ c ∧ 0 ≤ d ∧ a + c + d = 1 ∧ (⟨p.X + s, p.Y, p.Z⟩ : Vec ℚ) = blend t a c d

/-- The ray passes through the inside of the triangle, after its start. -/
def RayHits (p : Vec ℚ) (t : Tri (Vec ℚ)) : Prop :=
  ∃ s a c d : ℚ, 0 < s ∧ 0 < a ∧ 0 < c ∧ 0 < d ∧ a + c + d = 1 ∧ (⟨p.X + s, p.Y, p.Z⟩ : Vec ℚ) = blend t a c d

/-- The ray passes clearly through each triangle it meets: not through its edges, not along it. -/
def ClearRay (p : Vec ℚ) (ts : List (Tri (Vec ℚ))) : Prop :=
  ∀ t ∈ ts, RayMeets p t → RayHits p t ∧ (normal t).X ≠ 0

open Classical in
/-- How often the ray leaves through the surface, less how often it enters.  For a closed surface and a clear ray this is how
    often the surface winds around `p`: one inside of a body, zero outside. -/
noncomputable def winding (p : Vec ℚ) (ts : List (Tri (Vec ℚ))) : Int :=
  ((ts.filter fun t => RayHits p t ∧ 0 < (normal t).X).length : Int) -
    (ts.filter fun t => RayHits p t ∧ (normal t).X < 0).length

/-- `p` is in the octahedron around the centre of voxel `k` that reaches half a voxel in each direction of an axis. -/
def NearCentre (b : BinVOX ℚ) (k : Key) (p : Vec ℚ) : Prop :=
  |p.X - (centre b k).X| + |p.Y - (centre b k).Y| + |p.Z - (centre b k).Z| < 1 / (2 * b.VoxelsPerMM)

/-- Seen in the direction of x, `p` is not on a line through the centre of voxel `k` with one of the slopes a triangle of
    marching cubes can have. -/
def OffCentre (b : BinVOX ℚ) (k : Key) (p : Vec ℚ) : Prop :=
  p.Y ≠ (centre b k).Y ∧ p.Z ≠ (centre b k).Z ∧ |p.Y - (centre b k).Y| ≠ |p.Z - (centre b k).Z| ∧
    |p.Y - (centre b k).Y| ≠ 2 * |p.Z - (centre b k).Z| ∧ 2 * |p.Y - (centre b k).Y| ≠ |p.Z - (centre b k).Z|

/-- `p` is inside of the cube of voxel `k`, not on its border. -/
def InVoxel (b : BinVOX ℚ) (k : Key) (p : Vec ℚ) : Prop :=
  |p.X - (centre b k).X| < 1 / (2 * b.VoxelsPerMM) ∧ |p.Y - (centre b k).Y| < 1 / (2 * b.VoxelsPerMM) ∧
    |p.Z - (centre b k).Z| < 1 / (2 * b.VoxelsPerMM)

/-- Seen in the direction of x, `p` is not on one of the lines through the face of voxel `k` that an edge of ManifoldMesh can
    lie on: those through the middle, those between the middles of neighbouring sides, and those from a corner to the middle
    of a side. -/
def OffLines (b : BinVOX ℚ) (k : Key) (p : Vec ℚ) : Prop :=
  OffCentre b k p ∧ |p.Y - (centre b k).Y| + |p.Z - (centre b k).Z| ≠ 1 / (2 * b.VoxelsPerMM) ∧
    2 * |p.Y - (centre b k).Y| + |p.Z - (centre b k).Z| ≠ 2 * (1 / (2 * b.VoxelsPerMM)) ∧
    |p.Y - (centre b k).Y| + 2 * |p.Z - (centre b k).Z| ≠ 2 * (1 / (2 * b.VoxelsPerMM))

end StlDice.Spec
