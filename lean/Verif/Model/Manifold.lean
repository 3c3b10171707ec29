import Verif.Model.Marching

/-!
# ManifoldMesh: binvox/manifold.go and binvox/face-templates.go

As in `Model/Marching`, a triangle is kept as its three corner positions (library normals are not
modelled) and the log line for unhandled cells is left out.
-/

namespace StlDice
namespace Manifold
open GoFloat BinVOX
open Marching (corner cornerOff)

/-- The grid cells updated by `keyFunc` for voxel `v` with the bit that is or-ed in,
    binvox/manifold.go:33-40 (bits `g0`..`g7`, binvox/manifold.go:11-20). -/
def cellBits (v : Key) : List (Key × Nat) :=
  [(v, 1), (v.shift (-1) 0 0, 2), (v.shift 0 1 0, 8), (v.shift (-1) 1 0, 4),
   (v.shift 0 0 (-1), 16), (v.shift (-1) 0 (-1), 32), (v.shift 0 1 (-1), 128), (v.shift (-1) 1 (-1), 64)]

/-- `gridCells[c] = gridCells[c] | bit`, binvox/manifold.go:33-40. -/
def orInto (m : GoMap Key Nat) (cb : Key × Nat) : GoMap Key Nat :=
  m.set cb.1 ((m.get cb.1).getD 0 ||| cb.2)

/-- `gridCells` after ranging over the voxels `vs`, binvox/manifold.go:31-47. -/
def gridOf (vs : List Key) : GoMap Key Nat := (vs.flatMap cellBits).foldl orInto []

/-- The rotations and reflections of binvox/manifold.go:88-134 that wrap a `voxelToVectorFunc`. -/
inductive Turn where
  | cwZ
  | ccwZ
  | r180Z
  | cwX
  | ccwX
  | r180X
  | cwY
  | ccwY
  | r180Y
  | mirrorX
  | mirrorY
  | mirrorZ
deriving DecidableEq

/-- What the wrapper does to `(dx, dy, dz)`.  Simplification: template coordinates are the integers
    -1, 0, 1 in units of `dd`, so negation is exact (0 and -0 are not told apart). -/
def Turn.on : Turn → Key → Key
  -- `rotateTrisClockwiseZ`, binvox/manifold.go:88-90
  | .cwZ, p => ⟨p.Y, -p.X, p.Z⟩
  -- `rotateTrisCounterClockwiseZ`, binvox/manifold.go:92-94
  | .ccwZ, p => ⟨-p.Y, p.X, p.Z⟩
  -- `rotateTris180Z`, binvox/manifold.go:96-98
  | .r180Z, p => ⟨-p.X, -p.Y, p.Z⟩
  -- `rotateTrisClockwiseX`, binvox/manifold.go:100-102
  | .cwX, p => ⟨p.X, p.Z, -p.Y⟩
  -- `rotateTrisCounterClockwiseX`, binvox/manifold.go:104-106
  | .ccwX, p => ⟨p.X, -p.Z, p.Y⟩
  -- `rotateTris180X`, binvox/manifold.go:108-110
  | .r180X, p => ⟨p.X, -p.Y, -p.Z⟩
  -- `rotateTrisClockwiseY`, binvox/manifold.go:112-114
  | .cwY, p => ⟨p.Z, p.Y, -p.X⟩
  -- `rotateTrisCounterClockwiseY`, binvox/manifold.go:116-118
  | .ccwY, p => ⟨-p.Z, p.Y, p.X⟩
  -- `rotateTris180Y`, binvox/manifold.go:120-122
  | .r180Y, p => ⟨-p.X, p.Y, -p.Z⟩
  -- `mirrorX`, binvox/manifold.go:124-126
  | .mirrorX, p => ⟨-p.X, p.Y, p.Z⟩
  -- `mirrorY`, binvox/manifold.go:128-130
  | .mirrorY, p => ⟨p.X, -p.Y, p.Z⟩
  -- `mirrorZ`, binvox/manifold.go:132-134
  | .mirrorZ, p => ⟨p.X, p.Y, -p.Z⟩

/-- `singleFace`, binvox/face-templates.go:38-50, in units of `dd`. -/
def singleFace : List (Tri Key) := [
  ⟨⟨-1, 0, -1⟩, ⟨0, 0, -1⟩, ⟨0, 0, 0⟩⟩,
  ⟨⟨-1, 0, -1⟩, ⟨0, 0, 0⟩, ⟨-1, 0, 0⟩⟩,
  ⟨⟨0, 0, -1⟩, ⟨1, 0, -1⟩, ⟨1, 0, 0⟩⟩,
  ⟨⟨0, 0, -1⟩, ⟨1, 0, 0⟩, ⟨0, 0, 0⟩⟩,
  ⟨⟨-1, 0, 0⟩, ⟨0, 0, 0⟩, ⟨0, 0, 1⟩⟩,
  ⟨⟨-1, 0, 0⟩, ⟨0, 0, 1⟩, ⟨-1, 0, 1⟩⟩,
  ⟨⟨0, 0, 0⟩, ⟨1, 0, 0⟩, ⟨1, 0, 1⟩⟩,
  ⟨⟨0, 0, 0⟩, ⟨1, 0, 1⟩, ⟨0, 0, 1⟩⟩]

/-- `singleCorner`, binvox/face-templates.go:52-59, in units of `dd`. -/
def singleCorner : List (Tri Key) := [
  ⟨⟨-1, 0, -1⟩, ⟨0, 0, -1⟩, ⟨0, 0, 0⟩⟩,
  ⟨⟨-1, 0, -1⟩, ⟨0, 0, 0⟩, ⟨-1, 0, 0⟩⟩,
  ⟨⟨0, 0, 0⟩, ⟨0, 1, 0⟩, ⟨-1, 1, 0⟩⟩,
  ⟨⟨0, 0, 0⟩, ⟨-1, 1, 0⟩, ⟨-1, 0, 0⟩⟩,
  ⟨⟨0, 0, 0⟩, ⟨0, 0, -1⟩, ⟨0, 1, -1⟩⟩,
  ⟨⟨0, 0, 0⟩, ⟨0, 1, -1⟩, ⟨0, 1, 0⟩⟩]

/-- `twoAdjacentCorners`, binvox/face-templates.go:61-73, in units of `dd`. -/
def twoAdjacentCorners : List (Tri Key) := [
  ⟨⟨-1, 0, 0⟩, ⟨0, 0, 0⟩, ⟨0, 1, 0⟩⟩,
  ⟨⟨-1, 0, 0⟩, ⟨0, 1, 0⟩, ⟨-1, 1, 0⟩⟩,
  ⟨⟨0, 0, 0⟩, ⟨1, 0, 0⟩, ⟨1, 1, 0⟩⟩,
  ⟨⟨0, 0, 0⟩, ⟨1, 1, 0⟩, ⟨0, 1, 0⟩⟩,
  ⟨⟨-1, 0, 0⟩, ⟨-1, 0, -1⟩, ⟨0, 0, -1⟩⟩,
  ⟨⟨-1, 0, 0⟩, ⟨0, 0, -1⟩, ⟨0, 0, 0⟩⟩,
  ⟨⟨0, 0, 0⟩, ⟨0, 0, -1⟩, ⟨1, 0, -1⟩⟩,
  ⟨⟨0, 0, 0⟩, ⟨1, 0, -1⟩, ⟨1, 0, 0⟩⟩]

/-- `twoOppositeLevelCorners`, binvox/face-templates.go:75-86, in units of `dd`. -/
def twoOppositeLevelCorners : List (Tri Key) := [
  ⟨⟨-1, 1, 0⟩, ⟨-1, 0, 0⟩, ⟨0, -1, 0⟩⟩,
  ⟨⟨-1, 1, 0⟩, ⟨0, -1, 0⟩, ⟨1, -1, 0⟩⟩,
  ⟨⟨-1, 1, 0⟩, ⟨1, -1, 0⟩, ⟨1, 0, 0⟩⟩,
  ⟨⟨-1, 1, 0⟩, ⟨1, 0, 0⟩, ⟨0, 1, 0⟩⟩,
  ⟨⟨-1, 0, 0⟩, ⟨-1, 0, -1⟩, ⟨0, -1, -1⟩⟩,
  ⟨⟨-1, 0, 0⟩, ⟨0, -1, -1⟩, ⟨0, -1, 0⟩⟩,
  ⟨⟨1, 0, 0⟩, ⟨1, 0, -1⟩, ⟨0, 1, -1⟩⟩,
  ⟨⟨1, 0, 0⟩, ⟨0, 1, -1⟩, ⟨0, 1, 0⟩⟩]

/-- `twoOppositeDiagonalCorners`, binvox/face-templates.go:88-106, in units of `dd`. -/
def twoOppositeDiagonalCorners : List (Tri Key) := [
  ⟨⟨-1, 1, 0⟩, ⟨-1, 0, 0⟩, ⟨0, -1, 1⟩⟩,
  ⟨⟨-1, 1, 0⟩, ⟨0, -1, 1⟩, ⟨0, 0, 1⟩⟩,
  ⟨⟨-1, 0, 0⟩, ⟨-1, 0, -1⟩, ⟨0, -1, 0⟩⟩,
  ⟨⟨-1, 0, 0⟩, ⟨0, -1, 0⟩, ⟨0, -1, 1⟩⟩,
  ⟨⟨-1, 0, -1⟩, ⟨0, 0, -1⟩, ⟨1, -1, 0⟩⟩,
  ⟨⟨-1, 0, -1⟩, ⟨1, -1, 0⟩, ⟨0, -1, 0⟩⟩,
  ⟨⟨0, 0, -1⟩, ⟨0, 1, -1⟩, ⟨1, 0, 0⟩⟩,
  ⟨⟨0, 0, -1⟩, ⟨1, 0, 0⟩, ⟨1, -1, 0⟩⟩,
  ⟨⟨0, 1, -1⟩, ⟨0, 1, 0⟩, ⟨1, 0, 1⟩⟩,
  ⟨⟨0, 1, -1⟩, ⟨1, 0, 1⟩, ⟨1, 0, 0⟩⟩,
  ⟨⟨0, 1, 0⟩, ⟨-1, 1, 0⟩, ⟨0, 0, 1⟩⟩,
  ⟨⟨0, 1, 0⟩, ⟨0, 0, 1⟩, ⟨1, 0, 1⟩⟩]

/-- `threeAdjacentCorners`, binvox/face-templates.go:108-117, in units of `dd`. -/
def threeAdjacentCorners : List (Tri Key) := [
  ⟨⟨-1, 0, 0⟩, ⟨1, 0, 0⟩, ⟨1, 1, 0⟩⟩,
  ⟨⟨-1, 0, 0⟩, ⟨1, 1, 0⟩, ⟨-1, 1, 0⟩⟩,
  ⟨⟨-1, 0, -1⟩, ⟨0, 0, -1⟩, ⟨0, 0, 0⟩⟩,
  ⟨⟨-1, 0, -1⟩, ⟨0, 0, 0⟩, ⟨-1, 0, 0⟩⟩,
  ⟨⟨0, 0, 0⟩, ⟨0, 0, -1⟩, ⟨0, -1, -1⟩⟩,
  ⟨⟨0, 0, 0⟩, ⟨0, -1, -1⟩, ⟨0, -1, 0⟩⟩,
  ⟨⟨0, 0, 0⟩, ⟨0, -1, 0⟩, ⟨1, -1, 0⟩⟩,
  ⟨⟨0, 0, 0⟩, ⟨1, -1, 0⟩, ⟨1, 0, 0⟩⟩]

/-- `halfCorner`, binvox/face-templates.go:119-124, in units of `dd`. -/
def halfCorner : List (Tri Key) := [
  ⟨⟨-1, 0, -1⟩, ⟨0, 0, -1⟩, ⟨0, 0, 0⟩⟩,
  ⟨⟨-1, 0, -1⟩, ⟨0, 0, 0⟩, ⟨-1, 0, 0⟩⟩,
  ⟨⟨0, 0, 0⟩, ⟨0, 1, 0⟩, ⟨-1, 1, 0⟩⟩,
  ⟨⟨0, 0, 0⟩, ⟨-1, 1, 0⟩, ⟨-1, 0, 0⟩⟩]

/-- `g0357`, binvox/face-templates.go:128-139, in units of `dd`. -/
def g0357 : List (Tri Key) := [
  ⟨⟨-1, 0, 0⟩, ⟨-1, 0, 1⟩, ⟨0, 0, 1⟩⟩,
  ⟨⟨-1, 0, 0⟩, ⟨0, 0, 1⟩, ⟨0, 1, 1⟩⟩,
  ⟨⟨-1, 0, 0⟩, ⟨0, 1, 1⟩, ⟨-1, 1, 0⟩⟩,
  ⟨⟨0, 0, -1⟩, ⟨0, 1, -1⟩, ⟨1, 1, 0⟩⟩,
  ⟨⟨0, 0, -1⟩, ⟨1, 1, 0⟩, ⟨1, 0, 0⟩⟩,
  ⟨⟨0, 0, 0⟩, ⟨0, 0, -1⟩, ⟨1, 0, 0⟩⟩,
  ⟨⟨0, 0, 0⟩, ⟨1, 0, 0⟩, ⟨1, -1, 0⟩⟩,
  ⟨⟨0, 0, 0⟩, ⟨1, -1, 0⟩, ⟨0, -1, 0⟩⟩,
  ⟨⟨0, 0, 0⟩, ⟨0, -1, 0⟩, ⟨0, -1, -1⟩⟩,
  ⟨⟨0, 0, 0⟩, ⟨0, -1, -1⟩, ⟨0, 0, -1⟩⟩]

/-- `g234`, binvox/face-templates.go:141-154, in units of `dd`. -/
def g234 : List (Tri Key) := [
  ⟨⟨0, 0, -1⟩, ⟨-1, 0, -1⟩, ⟨-1, 1, 0⟩⟩,
  ⟨⟨0, 0, -1⟩, ⟨-1, 1, 0⟩, ⟨0, 1, 0⟩⟩,
  ⟨⟨0, 0, -1⟩, ⟨0, 1, 0⟩, ⟨0, 0, 0⟩⟩,
  ⟨⟨0, 0, -1⟩, ⟨0, 0, 0⟩, ⟨1, 0, -1⟩⟩,
  ⟨⟨0, 0, 0⟩, ⟨1, 0, 0⟩, ⟨1, 0, -1⟩⟩,
  ⟨⟨0, 0, 0⟩, ⟨1, -1, 0⟩, ⟨1, 0, 0⟩⟩,
  ⟨⟨0, 0, 0⟩, ⟨0, -1, 0⟩, ⟨1, -1, 0⟩⟩,
  ⟨⟨0, 0, 0⟩, ⟨0, 0, 1⟩, ⟨0, -1, 0⟩⟩,
  ⟨⟨0, 0, 0⟩, ⟨0, 1, 1⟩, ⟨0, 0, 1⟩⟩,
  ⟨⟨0, 0, 0⟩, ⟨0, 1, 0⟩, ⟨0, 1, 1⟩⟩,
  ⟨⟨0, -1, 0⟩, ⟨0, 0, 1⟩, ⟨-1, 0, 1⟩⟩,
  ⟨⟨0, -1, 0⟩, ⟨-1, 0, 1⟩, ⟨-1, -1, 0⟩⟩]

/-- `g0156`, binvox/face-templates.go:156-165, in units of `dd`. -/
def g0156 : List (Tri Key) := [
  ⟨⟨-1, 0, -1⟩, ⟨1, 0, -1⟩, ⟨1, 0, 0⟩⟩,
  ⟨⟨-1, 0, -1⟩, ⟨1, 0, 0⟩, ⟨-1, 0, 0⟩⟩,
  ⟨⟨0, 1, 0⟩, ⟨0, -1, 0⟩, ⟨0, -1, 1⟩⟩,
  ⟨⟨0, 1, 0⟩, ⟨0, -1, 1⟩, ⟨0, 1, 1⟩⟩,
  ⟨⟨0, 0, 0⟩, ⟨0, 1, 0⟩, ⟨-1, 1, 0⟩⟩,
  ⟨⟨0, 0, 0⟩, ⟨-1, 1, 0⟩, ⟨-1, 0, 0⟩⟩,
  ⟨⟨0, 0, 0⟩, ⟨1, 0, 0⟩, ⟨1, -1, 0⟩⟩,
  ⟨⟨0, 0, 0⟩, ⟨1, -1, 0⟩, ⟨0, -1, 0⟩⟩]

/-- `g2457`, binvox/face-templates.go:167-174, in units of `dd`. -/
def g2457 : List (Tri Key) := [
  ⟨⟨1, -1, 0⟩, ⟨1, 0, 1⟩, ⟨0, -1, 1⟩⟩,
  ⟨⟨0, -1, 1⟩, ⟨1, 0, 1⟩, ⟨0, 0, 1⟩⟩,
  ⟨⟨0, 0, -1⟩, ⟨0, -1, -1⟩, ⟨-1, -1, 0⟩⟩,
  ⟨⟨0, 0, -1⟩, ⟨-1, -1, 0⟩, ⟨-1, 1, 0⟩⟩,
  ⟨⟨0, 0, -1⟩, ⟨-1, 1, 0⟩, ⟨1, 1, 0⟩⟩,
  ⟨⟨0, 0, -1⟩, ⟨1, 1, 0⟩, ⟨1, 0, -1⟩⟩]

/-- `g12467`, binvox/face-templates.go:176-189, in units of `dd`. -/
def g12467 : List (Tri Key) := [
  ⟨⟨1, 0, 0⟩, ⟨1, 1, 0⟩, ⟨0, 1, 1⟩⟩,
  ⟨⟨1, 0, 0⟩, ⟨0, 1, 1⟩, ⟨0, 0, 1⟩⟩,
  ⟨⟨1, 0, 0⟩, ⟨0, 0, 1⟩, ⟨1, 0, 1⟩⟩,
  ⟨⟨0, 0, -1⟩, ⟨0, -1, -1⟩, ⟨0, -1, 0⟩⟩,
  ⟨⟨0, 0, -1⟩, ⟨0, -1, 0⟩, ⟨0, 0, 0⟩⟩,
  ⟨⟨0, 0, -1⟩, ⟨0, 0, 0⟩, ⟨-1, 0, 0⟩⟩,
  ⟨⟨0, 0, -1⟩, ⟨-1, 0, 0⟩, ⟨-1, 1, 0⟩⟩,
  ⟨⟨0, 0, -1⟩, ⟨-1, 1, 0⟩, ⟨0, 1, -1⟩⟩,
  ⟨⟨0, 0, 0⟩, ⟨0, -1, 0⟩, ⟨-1, -1, 0⟩⟩,
  ⟨⟨0, 0, 0⟩, ⟨-1, -1, 0⟩, ⟨-1, 0, 0⟩⟩]

/-- `g024567`, binvox/face-templates.go:191-199, in units of `dd`. -/
def g024567 : List (Tri Key) := [
  ⟨⟨-1, 0, 0⟩, ⟨-1, 0, -1⟩, ⟨0, -1, -1⟩⟩,
  ⟨⟨-1, 0, 0⟩, ⟨0, -1, -1⟩, ⟨0, -1, 0⟩⟩,
  ⟨⟨-1, 0, 0⟩, ⟨0, -1, 0⟩, ⟨-1, -1, 0⟩⟩,
  ⟨⟨1, 0, 0⟩, ⟨1, 0, -1⟩, ⟨0, 1, -1⟩⟩,
  ⟨⟨1, 0, 0⟩, ⟨0, 1, -1⟩, ⟨0, 1, 0⟩⟩,
  ⟨⟨1, 0, 0⟩, ⟨0, 1, 0⟩, ⟨1, 1, 0⟩⟩]

/-- `g13456`, binvox/face-templates.go:201-210, in units of `dd`. -/
def g13456 : List (Tri Key) := [
  ⟨⟨-1, -1, 0⟩, ⟨0, -1, 1⟩, ⟨0, 0, 1⟩⟩,
  ⟨⟨-1, -1, 0⟩, ⟨0, 0, 1⟩, ⟨-1, 0, 1⟩⟩,
  ⟨⟨0, -1, -1⟩, ⟨1, 0, -1⟩, ⟨1, 0, 0⟩⟩,
  ⟨⟨0, -1, -1⟩, ⟨1, 0, 0⟩, ⟨1, -1, 0⟩⟩,
  ⟨⟨-1, 0, -1⟩, ⟨-1, 1, 0⟩, ⟨0, 1, 0⟩⟩,
  ⟨⟨-1, 0, -1⟩, ⟨0, 1, 0⟩, ⟨0, 1, -1⟩⟩]

/-- `g0167`, binvox/face-templates.go:212-218, in units of `dd`. -/
def g0167 : List (Tri Key) := [
  ⟨⟨1, 1, 0⟩, ⟨-1, 1, 0⟩, ⟨-1, 0, 1⟩⟩,
  ⟨⟨1, 1, 0⟩, ⟨-1, 0, 1⟩, ⟨1, 0, 1⟩⟩,
  ⟨⟨-1, 0, -1⟩, ⟨1, 0, -1⟩, ⟨1, -1, 0⟩⟩,
  ⟨⟨-1, 0, -1⟩, ⟨1, -1, 0⟩, ⟨-1, -1, 0⟩⟩]

/-- The corners named in a `case` label as a bit map, binvox/manifold.go:11-20. -/
def gs (l : List Nat) : Nat := (l.map fun i => 2 ^ i).sum

/-- One `apply(k, chain(v2v), template)`: the wrappers from the outside in, whether the template
    goes through `flipNormals`, the template. -/
structure Apply where
  chain : List Turn
  flip : Bool
  template : List (Tri Key)

/-- Cases of the switch in `grid2tris`, binvox/manifold.go:151-210. -/
def gridCases0 : List (Nat × List Apply) := [
  (gs [0], [⟨[], false, singleCorner⟩]),
  (gs [1], [⟨[.cwZ], false, singleCorner⟩]),
  (gs [2], [⟨[.r180Z], false, singleCorner⟩]),
  (gs [3], [⟨[.ccwZ], false, singleCorner⟩]),
  (gs [4], [⟨[.ccwZ, .r180X], false, singleCorner⟩]),
  (gs [5], [⟨[.r180Z, .r180X], false, singleCorner⟩]),
  (gs [6], [⟨[.cwZ, .r180X], false, singleCorner⟩]),
  (gs [7], [⟨[.r180X], false, singleCorner⟩]),
  (gs [0, 1, 2, 3, 4, 6, 7], [⟨[.cwZ, .mirrorZ], false, singleCorner⟩]),
  (gs [0, 1, 3, 4, 5, 6, 7], [⟨[.cwZ, .mirrorY], false, singleCorner⟩]),
  (gs [0, 2, 3, 4, 5, 6, 7], [⟨[.mirrorX], false, singleCorner⟩]),
  (gs [0, 1, 2, 4, 5, 6, 7], [⟨[.r180X, .mirrorZ], false, singleCorner⟩]),
  (gs [1, 2, 3, 4, 5, 6, 7], [⟨[.cwZ, .mirrorX], false, singleCorner⟩]),
  (gs [0, 1, 2, 3, 5, 6, 7], [⟨[.mirrorZ], false, singleCorner⟩]),
  (gs [0, 1, 2, 3, 4, 5, 7], [⟨[.r180X, .mirrorX], false, singleCorner⟩]),
  (gs [0, 1, 2, 3, 4, 5, 6], [⟨[.ccwZ, .mirrorZ], false, singleCorner⟩]),
  (gs [0, 1, 2, 3], [⟨[.cwX], false, singleFace⟩]),
  (gs [4, 5, 6, 7], [⟨[.ccwX], false, singleFace⟩]),
  (gs [0, 1, 4, 5], [⟨[], false, singleFace⟩]),
  (gs [1, 2, 5, 6], [⟨[.cwZ], false, singleFace⟩]),
  (gs [2, 3, 6, 7], [⟨[.r180Z], false, singleFace⟩]),
  (gs [0, 3, 4, 7], [⟨[.ccwZ], false, singleFace⟩]),
  (gs [0, 1], [⟨[], false, twoAdjacentCorners⟩]),
  (gs [0, 3], [⟨[.ccwZ], false, twoAdjacentCorners⟩]),
  (gs [1, 2], [⟨[.cwZ], false, twoAdjacentCorners⟩]),
  (gs [2, 3], [⟨[.r180Z], false, twoAdjacentCorners⟩]),
  (gs [0, 4], [⟨[.cwY], false, twoAdjacentCorners⟩]),
  (gs [1, 5], [⟨[.cwY, .cwZ], false, twoAdjacentCorners⟩])]

/-- Cases of the switch in `grid2tris`, binvox/manifold.go:211-268. -/
def gridCases1 : List (Nat × List Apply) := [
  (gs [2, 6], [⟨[.cwY, .r180Z], false, twoAdjacentCorners⟩]),
  (gs [3, 7], [⟨[.cwY, .ccwZ], false, twoAdjacentCorners⟩]),
  (gs [4, 5], [⟨[.ccwX], false, twoAdjacentCorners⟩]),
  (gs [4, 7], [⟨[.ccwX, .ccwZ], false, twoAdjacentCorners⟩]),
  (gs [5, 6], [⟨[.ccwX, .cwZ], false, twoAdjacentCorners⟩]),
  (gs [6, 7], [⟨[.ccwX, .r180Z], false, twoAdjacentCorners⟩]),
  (gs [0, 1, 2, 3, 6, 7], [⟨[.mirrorZ], false, twoAdjacentCorners⟩]),
  (gs [0, 1, 2, 3, 5, 6], [⟨[.ccwZ, .mirrorZ], false, twoAdjacentCorners⟩]),
  (gs [0, 1, 4, 5, 6, 7], [⟨[.mirrorY], false, twoAdjacentCorners⟩]),
  (gs [0, 3, 4, 5, 6, 7], [⟨[.ccwZ, .mirrorX], false, twoAdjacentCorners⟩]),
  (gs [1, 2, 4, 5, 6, 7], [⟨[.cwZ, .mirrorX], false, twoAdjacentCorners⟩]),
  (gs [2, 3, 4, 5, 6, 7], [⟨[.ccwX, .mirrorZ], false, twoAdjacentCorners⟩]),
  (gs [1, 2, 3, 5, 6, 7], [⟨[.cwY, .cwZ, .mirrorX], false, twoAdjacentCorners⟩]),
  (gs [0, 1, 2, 4, 5, 6], [⟨[.cwY, .mirrorY], false, twoAdjacentCorners⟩]),
  (gs [0, 2, 3, 4, 6, 7], [⟨[.cwY, .mirrorX], false, twoAdjacentCorners⟩]),
  (gs [0, 1, 3, 4, 5, 7], [⟨[.cwY, .ccwZ, .mirrorX], false, twoAdjacentCorners⟩]),
  (gs [0, 1, 2, 3, 4, 5], [⟨[.r180Z, .mirrorZ], false, twoAdjacentCorners⟩]),
  (gs [0, 1, 2, 3, 4, 7], [⟨[.cwZ, .mirrorZ], false, twoAdjacentCorners⟩]),
  (gs [0, 2], [⟨[], false, twoOppositeLevelCorners⟩]),
  (gs [1, 3], [⟨[.cwZ], false, twoOppositeLevelCorners⟩]),
  (gs [0, 7], [⟨[.cwY, .cwX], false, twoOppositeLevelCorners⟩]),
  (gs [3, 4], [⟨[.cwY], false, twoOppositeLevelCorners⟩]),
  (gs [0, 5], [⟨[.ccwX, .cwY], false, twoOppositeLevelCorners⟩]),
  (gs [1, 4], [⟨[.ccwX], false, twoOppositeLevelCorners⟩]),
  (gs [1, 6], [⟨[.ccwY], false, twoOppositeLevelCorners⟩]),
  (gs [2, 5], [⟨[.ccwY, .cwX], false, twoOppositeLevelCorners⟩]),
  (gs [3, 6], [⟨[.cwX], false, twoOppositeLevelCorners⟩]),
  (gs [2, 7], [⟨[.cwX, .cwY], false, twoOppositeLevelCorners⟩])]

/-- Cases of the switch in `grid2tris`, binvox/manifold.go:269-328. -/
def gridCases2 : List (Nat × List Apply) := [
  (gs [4, 6], [⟨[.r180X, .cwZ], false, twoOppositeLevelCorners⟩]),
  (gs [5, 7], [⟨[.r180X], false, twoOppositeLevelCorners⟩]),
  (gs [0, 6], [⟨[], false, twoOppositeDiagonalCorners⟩]),
  (gs [1, 7], [⟨[.cwZ], false, twoOppositeDiagonalCorners⟩]),
  (gs [2, 4], [⟨[.r180Z], false, twoOppositeDiagonalCorners⟩]),
  (gs [3, 5], [⟨[.ccwZ], false, twoOppositeDiagonalCorners⟩]),
  (gs [0, 1, 2], [⟨[], false, threeAdjacentCorners⟩]),
  (gs [0, 1, 3], [⟨[.ccwZ], false, threeAdjacentCorners⟩]),
  (gs [0, 2, 3], [⟨[.r180Z], false, threeAdjacentCorners⟩]),
  (gs [1, 2, 3], [⟨[.cwZ], false, threeAdjacentCorners⟩]),
  (gs [4, 5, 6], [⟨[.r180X, .ccwZ], false, threeAdjacentCorners⟩]),
  (gs [4, 5, 7], [⟨[.r180X, .r180Z], false, threeAdjacentCorners⟩]),
  (gs [4, 6, 7], [⟨[.r180X, .cwZ], false, threeAdjacentCorners⟩]),
  (gs [5, 6, 7], [⟨[.r180X], false, threeAdjacentCorners⟩]),
  (gs [0, 4, 5], [⟨[.ccwY, .ccwZ], false, threeAdjacentCorners⟩]),
  (gs [1, 2, 6], [⟨[.cwY, .r180Z], false, threeAdjacentCorners⟩]),
  (gs [2, 3, 6], [⟨[.cwX], false, threeAdjacentCorners⟩]),
  (gs [0, 4, 7], [⟨[.ccwX, .ccwZ], false, threeAdjacentCorners⟩]),
  (gs [2, 3, 7], [⟨[.cwY, .ccwZ], false, threeAdjacentCorners⟩]),
  (gs [0, 3, 7], [⟨[.cwX, .cwZ], false, threeAdjacentCorners⟩]),
  (gs [0, 1, 5], [⟨[.cwY, .cwZ], false, threeAdjacentCorners⟩]),
  (gs [1, 5, 6], [⟨[.ccwY], false, threeAdjacentCorners⟩]),
  (gs [3, 6, 7], [⟨[.ccwX, .r180Z], false, threeAdjacentCorners⟩]),
  (gs [2, 6, 7], [⟨[.ccwY, .cwZ], false, threeAdjacentCorners⟩]),
  (gs [1, 4, 5], [⟨[.ccwX], false, threeAdjacentCorners⟩]),
  (gs [0, 1, 4], [⟨[.cwX, .r180Z], false, threeAdjacentCorners⟩]),
  (gs [3, 4, 7], [⟨[.ccwY, .r180Z], false, threeAdjacentCorners⟩]),
  (gs [2, 5, 6], [⟨[.ccwX, .cwZ], false, threeAdjacentCorners⟩])]

/-- Cases of the switch in `grid2tris`, binvox/manifold.go:329-392. -/
def gridCases3 : List (Nat × List Apply) := [
  (gs [0, 3, 4], [⟨[.cwY], false, threeAdjacentCorners⟩]),
  (gs [1, 2, 5], [⟨[.cwX, .ccwZ], false, threeAdjacentCorners⟩]),
  (gs [0, 1, 2, 3, 6], [⟨[.r180X, .r180Z], true, threeAdjacentCorners⟩]),
  (gs [0, 1, 2, 3, 7], [⟨[.r180X, .ccwZ], true, threeAdjacentCorners⟩]),
  (gs [1, 4, 5, 6, 7], [⟨[.r180Z], true, threeAdjacentCorners⟩]),
  (gs [0, 4, 5, 6, 7], [⟨[.cwZ], true, threeAdjacentCorners⟩]),
  (gs [0, 3, 4, 5, 7], [⟨[.cwY, .r180Z], true, threeAdjacentCorners⟩]),
  (gs [2, 3, 5, 6, 7], [⟨[.cwX, .r180Z], true, threeAdjacentCorners⟩]),
  (gs [2, 3, 4, 6, 7], [⟨[.cwY, .cwZ], true, threeAdjacentCorners⟩]),
  (gs [0, 3, 4, 6, 7], [⟨[.cwX, .ccwZ], true, threeAdjacentCorners⟩]),
  (gs [1, 2, 5, 6, 7], [⟨[.cwY], true, threeAdjacentCorners⟩]),
  (gs [0, 1, 4, 5, 7], [⟨[.cwX], true, threeAdjacentCorners⟩]),
  (gs [0, 1, 4, 5, 6], [⟨[.cwY, .ccwZ], true, threeAdjacentCorners⟩]),
  (gs [1, 2, 4, 5, 6], [⟨[.cwX, .cwZ], true, threeAdjacentCorners⟩]),
  (gs [2, 4, 5, 6, 7], [⟨[.ccwZ], true, threeAdjacentCorners⟩]),
  (gs [0, 2, 3, 6, 7], [⟨[.ccwX], true, threeAdjacentCorners⟩]),
  (gs [0, 2, 3, 4, 7], [⟨[.ccwY], true, threeAdjacentCorners⟩]),
  (gs [0, 1, 2, 5, 6], [⟨[.ccwY, .r180Z], true, threeAdjacentCorners⟩]),
  (gs [1, 2, 3, 5, 6], [⟨[.ccwX, .ccwZ], true, threeAdjacentCorners⟩]),
  (gs [0, 1, 2, 4, 5], [⟨[.ccwX, .r180Z], true, threeAdjacentCorners⟩]),
  (gs [3, 4, 5, 6, 7], [⟨[], true, threeAdjacentCorners⟩]),
  (gs [0, 1, 2, 3, 5], [⟨[.r180X, .cwZ], true, threeAdjacentCorners⟩]),
  (gs [0, 1, 3, 4, 7], [⟨[.ccwX, .cwZ], true, threeAdjacentCorners⟩]),
  (gs [0, 1, 2, 3, 4], [⟨[.r180X], true, threeAdjacentCorners⟩]),
  (gs [1, 2, 3, 6, 7], [⟨[.ccwY, .ccwZ], true, threeAdjacentCorners⟩]),
  (gs [0, 1, 3, 4, 5], [⟨[.ccwY, .cwZ], true, threeAdjacentCorners⟩]),
  (gs [0, 1, 2, 5], [⟨[], false, halfCorner⟩, ⟨[.cwX, .ccwZ], false, halfCorner⟩, ⟨[.ccwX, .cwY], false, halfCorner⟩]),
  (gs [0, 1, 3, 4], [⟨[.ccwZ], false, halfCorner⟩, ⟨[.cwX, .r180Z], false, halfCorner⟩, ⟨[.ccwX, .cwY, .ccwZ], false, halfCorner⟩])]

/-- Cases of the switch in `grid2tris`, binvox/manifold.go:393-472. -/
def gridCases4 : List (Nat × List Apply) := [
  (gs [0, 2, 3, 7], [⟨[.r180Z], false, halfCorner⟩, ⟨[.cwX, .cwZ], false, halfCorner⟩, ⟨[.ccwX, .cwY, .r180Z], false, halfCorner⟩]),
  (gs [0, 4, 5, 7], [⟨[.ccwX, .ccwZ], false, halfCorner⟩, ⟨[.cwX, .ccwZ, .ccwX, .ccwZ], false, halfCorner⟩, ⟨[.ccwX, .cwY, .ccwX, .ccwZ], false, halfCorner⟩]),
  (gs [1, 2, 3, 6], [⟨[.cwZ], false, halfCorner⟩, ⟨[.cwX], false, halfCorner⟩, ⟨[.ccwX, .cwY, .cwZ], false, halfCorner⟩]),
  (gs [1, 4, 5, 6], [⟨[.ccwX], false, halfCorner⟩, ⟨[.cwX, .ccwZ, .ccwX], false, halfCorner⟩, ⟨[.ccwX, .cwY, .ccwX], false, halfCorner⟩]),
  (gs [2, 5, 6, 7], [⟨[.ccwX, .cwZ], false, halfCorner⟩, ⟨[.cwX, .ccwZ, .ccwX, .cwZ], false, halfCorner⟩, ⟨[.ccwX, .cwY, .ccwX, .cwZ], false, halfCorner⟩]),
  (gs [3, 4, 6, 7], [⟨[.ccwX, .r180Z], false, halfCorner⟩, ⟨[.cwX, .ccwZ, .ccwX, .r180Z], false, halfCorner⟩, ⟨[.ccwX, .cwY, .ccwX, .r180Z], false, halfCorner⟩]),
  (gs [0, 3, 5, 6, 7], [⟨[], false, g0357⟩]),
  (gs [0, 1, 2, 6, 7], [⟨[.mirrorZ, .ccwZ], true, g0357⟩]),
  (gs [3, 4, 5], [⟨[.mirrorZ, .ccwZ], false, g0357⟩]),
  (gs [2, 3, 4], [⟨[], false, g234⟩]),
  (gs [0, 1, 5, 6, 7], [⟨[], true, g234⟩]),
  (gs [0, 6, 7], [⟨[.mirrorZ], true, g234⟩]),
  (gs [1, 2, 3, 4, 5], [⟨[.mirrorZ], false, g234⟩]),
  (gs [1, 6, 7], [⟨[.mirrorX], true, g234⟩]),
  (gs [0, 2, 3, 4, 5], [⟨[.mirrorX], false, g234⟩]),
  (gs [0, 1, 6], [⟨[.r180Z], false, g234⟩]),
  (gs [2, 3, 4, 5, 7], [⟨[.r180Z], true, g234⟩]),
  (gs [0, 1, 7], [⟨[.r180Z, .mirrorX], true, g234⟩]),
  (gs [2, 3, 4, 5, 6], [⟨[.r180Z, .mirrorX], false, g234⟩]),
  (gs [2, 4, 5], [⟨[.mirrorZ, .r180Z], true, g234⟩]),
  (gs [0, 1, 3, 6, 7], [⟨[.mirrorZ, .r180Z], false, g234⟩]),
  (gs [2, 3, 5], [⟨[.r180Z, .mirrorX, .r180Z], true, g234⟩]),
  (gs [0, 1, 4, 6, 7], [⟨[.r180Z, .mirrorX, .r180Z], false, g234⟩]),
  (gs [0, 1, 6, 7], [⟨[], false, g0167⟩]),
  (gs [2, 3, 4, 5], [⟨[], true, g0167⟩]),
  (gs [0, 1, 5, 6], [⟨[], false, g0156⟩]),
  (gs [0, 3, 6, 7], [⟨[.mirrorX, .ccwZ], true, g0156⟩]),
  (gs [2, 3, 4, 7], [⟨[.r180Z], false, g0156⟩])]

/-- Cases of the switch in `grid2tris`, binvox/manifold.go:473-532. -/
def gridCases5 : List (Nat × List Apply) := [
  (gs [0, 4, 5, 6], [⟨[.ccwY, .mirrorX], true, g0156⟩]),
  (gs [3, 4, 5, 7], [⟨[.ccwY, .mirrorX, .ccwZ], true, g0156⟩]),
  (gs [0, 1, 2, 6], [⟨[.ccwY, .mirrorX, .ccwZ], false, g0156⟩]),
  (gs [2, 3, 5, 6], [⟨[.mirrorX, .r180Z], true, g0156⟩]),
  (gs [0, 3, 4, 5], [⟨[.ccwZ], false, g0156⟩]),
  (gs [1, 2, 6, 7], [⟨[.ccwZ], true, g0156⟩]),
  (gs [0, 1, 4, 7], [⟨[.mirrorX, .r180Z], false, g0156⟩]),
  (gs [1, 2, 4, 5], [⟨[.mirrorX, .ccwZ], false, g0156⟩]),
  (gs [1, 4, 5, 7], [⟨[.ccwX, .ccwZ], false, g0156⟩]),
  (gs [0, 2, 3, 6], [⟨[.ccwX, .ccwZ], true, g0156⟩]),
  (gs [0, 4, 6, 7], [⟨[.r180Z, .cwX], false, g0156⟩]),
  (gs [1, 2, 3, 5], [⟨[.r180Z, .cwX], true, g0156⟩]),
  (gs [2, 4, 5, 6], [⟨[.cwZ, .cwX], false, g0156⟩]),
  (gs [0, 1, 3, 7], [⟨[.cwZ, .cwX], true, g0156⟩]),
  (gs [0, 2, 3, 4], [⟨[.ccwY, .mirrorX, .ccwZ, .r180Z], false, g0156⟩]),
  (gs [1, 5, 6, 7], [⟨[.ccwY, .mirrorX, .ccwZ, .r180Z], true, g0156⟩]),
  (gs [2, 4, 5, 7], [⟨[], false, g2457⟩]),
  (gs [1, 2, 4, 6, 7], [⟨[], false, g12467⟩]),
  (gs [0, 2, 4, 5, 6, 7], [⟨[], false, g024567⟩]),
  (gs [1, 3, 4, 5, 6, 7], [⟨[.cwZ], false, g024567⟩]),
  (gs [1, 2, 3, 4, 5, 6], [⟨[.cwY], false, g024567⟩]),
  (gs [1, 2, 3, 4, 6, 7], [⟨[.ccwX], false, g024567⟩]),
  (gs [0, 2, 3, 4, 5, 7], [⟨[.ccwX, .cwZ], false, g024567⟩]),
  (gs [0, 2, 3, 5, 6, 7], [⟨[.cwY, .cwZ], false, g024567⟩]),
  (gs [0, 1, 3, 4, 6, 7], [⟨[.ccwY], false, g024567⟩]),
  (gs [0, 1, 2, 5, 6, 7], [⟨[.ccwX, .ccwZ], false, g024567⟩]),
  (gs [1, 3, 4, 5, 6], [⟨[], false, g13456⟩]),
  (gs [0, 2, 4, 5, 7], [⟨[.ccwZ], false, g13456⟩])]

/-- All cases of the switch with triangles, binvox/manifold.go:151-532 (0 and 0xff have none,
    binvox/manifold.go:148). -/
def gridCases : List (Nat × List Apply) :=
  gridCases0 ++ gridCases1 ++ gridCases2 ++ gridCases3 ++ gridCases4 ++ gridCases5

/-- `flipNormals`, binvox/manifold.go:137-142. -/
def flipTri {P : Type} (t : Tri P) : Tri P := ⟨t.V1, t.V3, t.V2⟩

/-- `apply`, binvox/manifold.go:78-86, before the positions are computed: the wrappers act on the
    template from the outermost inwards. -/
def Apply.tris (a : Apply) : List (Tri Key) :=
  (if a.flip then a.template.map flipTri else a.template).map fun t =>
    ⟨a.chain.foldl (fun p f => f.on p) t.V1, a.chain.foldl (fun p f => f.on p) t.V2,
     a.chain.foldl (fun p f => f.on p) t.V3⟩

/-- `grid2tris`, binvox/manifold.go:145-538, relative to the centre of the cell in units of `dd`;
    `none` is an unhandled configuration (`default:`), which yields no triangles. -/
def gridTris? (n : Nat) : Option (List (Tri Key)) :=
  if n = 0 ∨ n = 255 then some []
  else (gridCases.find? fun c => c.1 = n).map fun c => c.2.flatMap Apply.tris

/-- `grid2tris`, binvox/manifold.go:145-538. -/
def gridTris (n : Nat) : List (Tri Key) := (gridTris? n).getD []

/-- A template coordinate: -1, 0, 1 stand for `-dd`, 0, `dd`, binvox/face-templates.go:7-36. -/
def ddCoord {F : Type} [GoFloat F] (c : Int) : F :=
  if c = 0 then ofInt 0 else if c = 1 then lit (1 / 2) else lit (-1 / 2)

/-- `voxelToVector`, binvox/manifold.go:54-61, with `mmpv = 1/VoxelsPerMM`. -/
def voxelToVector {F : Type} [GoFloat F] (b : BinVOX F) (k d : Key) : Vec F :=
  let mmpv := div (ofInt 1) b.VoxelsPerMM
  ⟨add (mul (add (add (ofInt k.X) (ofInt 1)) (ddCoord d.X)) mmpv) b.TX,
   add (mul (add (ofInt k.Y) (ddCoord d.Y)) mmpv) b.TY,
   add (mul (add (add (ofInt k.Z) (ofInt 1)) (ddCoord d.Z)) mmpv) b.TZ⟩

/-- The triangles of the cell at `k` with bit map `n`, binvox/manifold.go:63-65. -/
def cellTris {F : Type} [GoFloat F] (b : BinVOX F) (e : Key × Nat) : List (Tri (Vec F)) :=
  (gridTris e.2).map fun t =>
    ⟨voxelToVector b e.1 t.V1, voxelToVector b e.1 t.V2, voxelToVector b e.1 t.V3⟩

/-- `ManifoldMesh`, binvox/manifold.go:30-68.  The three `range` loops visit their maps in any
    order: a run is given by the orders `wo`, `co` of the voxels and `ord` of the cells. -/
def ManifoldRun {F : Type} [GoFloat F] (b : BinVOX F) (tris : List (Tri (Vec F))) : Prop :=
  ∃ wo co : List Key, ∃ ord : List (Key × Nat),
    wo.Perm b.white.keys ∧ co.Perm b.color.keys ∧ ord.Perm (gridOf (wo ++ co)) ∧
    tris = ord.flatMap (cellTris b)

/-- The comparison built by `TriangleLess`, binvox/manifold.go:541-595: lexicographic in
    V1.Z, V1.Y, V1.X, V2.Z, …, V3.X, as the chain of `<` and `>` tests in the source. -/
def lessChain {F : Type} [GoFloat F] : List (F × F) → Bool
  | [] => false
  | [(a, b)] => lt a b
  | (a, b) :: rest => if lt a b then true else if lt b a then false else lessChain rest

/-- `TriangleLess`, binvox/manifold.go:541-595. -/
def triangleLess {F : Type} [GoFloat F] (s t : Tri (Vec F)) : Bool :=
  lessChain [(s.V1.Z, t.V1.Z), (s.V1.Y, t.V1.Y), (s.V1.X, t.V1.X),
    (s.V2.Z, t.V2.Z), (s.V2.Y, t.V2.Y), (s.V2.X, t.V2.X),
    (s.V3.Z, t.V3.Z), (s.V3.Y, t.V3.Y), (s.V3.X, t.V3.X)]

end Manifold
end StlDice
