import Verif.Model.Manifold

/-! # What it means for a triangle list to be a closed, consistently oriented surface -/

namespace StlDice
namespace Spec

/-- The three directed edges of a triangle, following its corner order. -/
def triEdges {P : Type} (t : Tri P) : List (P × P) := [(t.V1, t.V2), (t.V2, t.V3), (t.V3, t.V1)]

/-- Closed and consistently oriented: from `u` to `v` the triangles run exactly as often as back. -/
def Closed {P : Type} [DecidableEq P] (ts : List (Tri P)) : Prop :=
  ∀ u v : P, (ts.flatMap triEdges).count (u, v) = (ts.flatMap triEdges).count (v, u)

/-- Voxel `k` is in the model, as seen through `Get`. -/
def Present {F : Type} [GoFloat F] (b : BinVOX F) (k : Key) : Prop :=
  (b.Get k.X k.Y k.Z).isSome

/-- Two voxels that share a face. -/
def Adjacent (k k' : Key) : Prop :=
  (k.X - k'.X).natAbs + (k.Y - k'.Y).natAbs + (k.Z - k'.Z).natAbs = 1

/-- The centre of voxel `k` in model coordinates, in exact arithmetic. -/
def centre (b : BinVOX ℚ) (k : Key) : BinVOX.Vec ℚ :=
  ⟨((k.X : ℚ) + 1 / 2) * (1 / b.VoxelsPerMM) + b.TX, ((k.Y : ℚ) + 1 / 2) * (1 / b.VoxelsPerMM) + b.TY,
   ((k.Z : ℚ) + 1 / 2) * (1 / b.VoxelsPerMM) + b.TZ⟩

/-- The point halfway between two points. -/
def midpoint (p q : BinVOX.Vec ℚ) : BinVOX.Vec ℚ :=
  ⟨(p.X + q.X) / 2, (p.Y + q.Y) / 2, (p.Z + q.Z) / 2⟩

/-- `a - b`. -/
def vsub (a b : BinVOX.Vec ℚ) : BinVOX.Vec ℚ := ⟨a.X - b.X, a.Y - b.Y, a.Z - b.Z⟩
/-- Scalar product. -/
def vdot (a b : BinVOX.Vec ℚ) : ℚ := a.X * b.X + a.Y * b.Y + a.Z * b.Z
/-- Vector product. -/
def vcross (a b : BinVOX.Vec ℚ) : BinVOX.Vec ℚ :=
  ⟨a.Y * b.Z - a.Z * b.Y, a.Z * b.X - a.X * b.Z, a.X * b.Y - a.Y * b.X⟩
/-- The (unnormalized) normal of a triangle by the right-hand rule. -/
def normal (t : Tri (BinVOX.Vec ℚ)) : BinVOX.Vec ℚ := vcross (vsub t.V2 t.V1) (vsub t.V3 t.V1)

/-- The triangle faces from the model to the outside: each corner is halfway between a voxel of the
    model (`i`) and an adjacent one outside (`o`), and the three steps from inside to outside have,
    added up, a positive component along the normal (so the triangle is not degenerate either). -/
def FacesOut (b : BinVOX ℚ) (t : Tri (BinVOX.Vec ℚ)) : Prop :=
  ∃ i1 o1 i2 o2 i3 o3 : Key,
    (Adjacent i1 o1 ∧ Present b i1 ∧ ¬ Present b o1 ∧ t.V1 = midpoint (centre b i1) (centre b o1)) ∧
    (Adjacent i2 o2 ∧ Present b i2 ∧ ¬ Present b o2 ∧ t.V2 = midpoint (centre b i2) (centre b o2)) ∧
    (Adjacent i3 o3 ∧ Present b i3 ∧ ¬ Present b o3 ∧ t.V3 = midpoint (centre b i3) (centre b o3)) ∧
    0 < vdot (normal t) (vsub (centre b o1) (centre b i1)) +
      vdot (normal t) (vsub (centre b o2) (centre b i2)) +
      vdot (normal t) (vsub (centre b o3) (centre b i3))

/-- The two halves of a directed edge. -/
def halves (e : BinVOX.Vec ℚ × BinVOX.Vec ℚ) : List (BinVOX.Vec ℚ × BinVOX.Vec ℚ) :=
  [(e.1, midpoint e.1 e.2), (midpoint e.1 e.2, e.2)]

/-- Closed and consistently oriented after cutting some of the edges in two halves (that is, closed
    as a set, although a long edge may run along two short ones). -/
def ClosedAfterHalving (ts : List (Tri (BinVOX.Vec ℚ))) : Prop :=
  ∃ cut : List Bool, cut.length = (ts.flatMap triEdges).length ∧
    ∀ u v, (((ts.flatMap triEdges).zip cut).flatMap
        fun ec => if ec.2 then halves ec.1 else [ec.1]).count (u, v) =
      (((ts.flatMap triEdges).zip cut).flatMap
        fun ec => if ec.2 then halves ec.1 else [ec.1]).count (v, u)

/-- The 2×2×2 block of voxels around a grid cell as a bit map: bit `i` for corner `i`, corners
    0..7 being the voxels at offsets (0,0,0), (1,0,0), (1,-1,0), (0,-1,0) and the same one level up. -/
def blockBits {F : Type} [GoFloat F] (b : BinVOX F) (k : Key) : Nat :=
  ((List.range 8).map fun i => if (b.Get (Marching.corner k i).X (Marching.corner k i).Y
    (Marching.corner k i).Z).isSome then 2 ^ i else 0).sum

/-- The 160 block configurations that `ManifoldMesh` handles consistently. -/
def goodConfigs : List Nat := [
  0x00, 0x01, 0x02, 0x03, 0x04, 0x05, 0x06, 0x07, 0x08, 0x09, 0x0a, 0x0b, 0x0c, 0x0d, 0x0e, 0x0f,
  0x10, 0x11, 0x12, 0x13, 0x14, 0x18, 0x19, 0x1b, 0x1c, 0x1d, 0x1f, 0x20, 0x21, 0x22, 0x23, 0x24,
  0x26, 0x27, 0x28, 0x2c, 0x2e, 0x2f, 0x30, 0x31, 0x32, 0x33, 0x34, 0x36, 0x37, 0x39, 0x3b, 0x3f,
  0x40, 0x41, 0x42, 0x43, 0x44, 0x46, 0x47, 0x48, 0x4c, 0x4d, 0x4e, 0x4f, 0x50, 0x60, 0x62, 0x63,
  0x64, 0x66, 0x67, 0x6c, 0x6e, 0x6f, 0x70, 0x71, 0x72, 0x73, 0x74, 0x76, 0x77, 0x7a, 0x7e, 0x7f,
  0x80, 0x81, 0x82, 0x83, 0x84, 0x88, 0x89, 0x8b, 0x8c, 0x8d, 0x8f, 0x90, 0x91, 0x93, 0x98, 0x99,
  0x9b, 0x9c, 0x9d, 0x9f, 0xa0, 0xb0, 0xb1, 0xb2, 0xb3, 0xb4, 0xb5, 0xb8, 0xb9, 0xbb, 0xbd, 0xbf,
  0xc0, 0xc1, 0xc3, 0xc4, 0xc6, 0xc7, 0xc8, 0xc9, 0xcc, 0xcd, 0xce, 0xcf, 0xd0, 0xd1, 0xd6, 0xd8,
  0xd9, 0xdb, 0xdc, 0xdd, 0xde, 0xdf, 0xe0, 0xe2, 0xe4, 0xe6, 0xe7, 0xe9, 0xec, 0xed, 0xee, 0xef,
  0xf0, 0xf1, 0xf2, 0xf3, 0xf4, 0xf5, 0xf6, 0xf7, 0xf8, 0xf9, 0xfa, 0xfb, 0xfc, 0xfd, 0xfe, 0xff]

/-- Number of axis steps from one voxel to another. -/
def dist (u v : Key) : Nat := (u.X - v.X).natAbs + (u.Y - v.Y).natAbs + (u.Z - v.Z).natAbs

/-- No two voxels of the same kind (in the model, or not in it) touch only along an edge or at a
    corner: if they lie in a common 2×2×2 block without sharing a face, another voxel of that kind
    lies between them. -/
def WellComposed {F : Type} [GoFloat F] (b : BinVOX F) : Prop :=
  ∀ u v : Key, (u.X - v.X).natAbs ≤ 1 → (u.Y - v.Y).natAbs ≤ 1 → (u.Z - v.Z).natAbs ≤ 1 →
    2 ≤ dist u v → (Present b u ↔ Present b v) →
    ∃ w : Key, w ≠ u ∧ w ≠ v ∧ dist u w + dist w v = dist u v ∧ (Present b w ↔ Present b u)

/-- The five blocks of four voxels in a twisted chain that `ManifoldMesh` does not handle
    (corners 0124, 0135, 1237, 2467 and 3567 of the block). -/
def twistedChains : List Nat := [0x17, 0x2b, 0x8e, 0xd4, 0xe8]

/-- Six times the signed volume of the tetrahedron from the origin over a triangle, summed up and
    divided by six: the volume enclosed by a closed, outward oriented surface. -/
def volume (ts : List (Tri (BinVOX.Vec ℚ))) : ℚ :=
  (ts.map fun t => vdot t.V1 (vcross t.V2 t.V3)).sum / 6

/-- `u + d`. -/
def step (u d : Key) : Key := u.shift d.X d.Y d.Z

/-- The six unit steps. -/
def unitSteps : List Key := [⟨1, 0, 0⟩, ⟨-1, 0, 0⟩, ⟨0, 1, 0⟩, ⟨0, -1, 0⟩, ⟨0, 0, 1⟩, ⟨0, 0, -1⟩]

/-- The centroid of a triangle. -/
def centroid (t : Tri (BinVOX.Vec ℚ)) : BinVOX.Vec ℚ :=
  ⟨(t.V1.X + t.V2.X + t.V3.X) / 3, (t.V1.Y + t.V2.Y + t.V3.Y) / 3, (t.V1.Z + t.V2.Z + t.V3.Z) / 3⟩

/-- Point `p` lies in the (closed) cube of voxel `k`, in exact arithmetic. -/
def InCube (b : BinVOX ℚ) (k : Key) (p : BinVOX.Vec ℚ) : Prop :=
  (k.X : ℚ) * (1 / b.VoxelsPerMM) + b.TX ≤ p.X ∧ p.X ≤ ((k.X : ℚ) + 1) * (1 / b.VoxelsPerMM) + b.TX ∧
  (k.Y : ℚ) * (1 / b.VoxelsPerMM) + b.TY ≤ p.Y ∧ p.Y ≤ ((k.Y : ℚ) + 1) * (1 / b.VoxelsPerMM) + b.TY ∧
  (k.Z : ℚ) * (1 / b.VoxelsPerMM) + b.TZ ≤ p.Z ∧ p.Z ≤ ((k.Z : ℚ) + 1) * (1 / b.VoxelsPerMM) + b.TZ

/-- The triangle is a piece of the skin: its centroid is on the common face of a voxel `u` of the
    model and its neighbour `u + d` outside, and its normal is a positive multiple of `d`. -/
def OnSkin (b : BinVOX ℚ) (t : Tri (BinVOX.Vec ℚ)) : Prop :=
  ∃ u d : Key, d ∈ unitSteps ∧ Present b u ∧ ¬ Present b (step u d) ∧
    InCube b u (centroid t) ∧ InCube b (step u d) (centroid t) ∧
    ∃ c : ℚ, 0 < c ∧ normal t = ⟨c * d.X, c * d.Y, c * d.Z⟩

/-- The area of a triangle whose normal has only one component. -/
def axisArea (t : Tri (BinVOX.Vec ℚ)) : ℚ :=
  (|(normal t).X| + |(normal t).Y| + |(normal t).Z|) / 2

end Spec
end StlDice
