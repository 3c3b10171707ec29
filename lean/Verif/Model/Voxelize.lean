import Verif.Model.BinVox
import Verif.Model.BinVoxIO

/-!
# Voxelization: binvox/voxelize.go

Triangles are reached through pointers (`*gl.Triangle`), and the code compares pointers, so a mesh
is a list of pointers (`Nat`) into a heap.  Log output is not modelled.
The goroutines (one per slice, one per row) only share the result map, which is protected by a
mutex; a run is therefore any interleaving of the `setVoxelFunc` calls of the goroutines
(`Interleave`).
-/

namespace StlDice

/-- `gl.Vertex`: only the position and the normal are used by the code. -/
structure Vertex (F : Type) where
  Position : BinVOX.Vec F
  Normal : BinVOX.Vec F

/-- `gl.Triangle`. -/
structure Triangle (F : Type) where
  V1 : Vertex F
  V2 : Vertex F
  V3 : Vertex F

/-- `gl.Mesh`: its `Triangles` are pointers. -/
structure Mesh (F : Type) where
  heap : Nat → Triangle F
  Triangles : List Nat

namespace Vec
open GoFloat BinVOX
variable {F : Type} [GoFloat F]

/-- `gl.Vector.Sub` (library function, taken to be componentwise). -/
def Sub (a b : Vec F) : Vec F := ⟨sub a.X b.X, sub a.Y b.Y, sub a.Z b.Z⟩
/-- `gl.Vector.Add`. -/
def Add (a b : Vec F) : Vec F := ⟨add a.X b.X, add a.Y b.Y, add a.Z b.Z⟩
/-- `gl.Vector.MulScalar`. -/
def MulScalar (a : Vec F) (t : F) : Vec F := ⟨mul a.X t, mul a.Y t, mul a.Z t⟩
/-- `gl.Vector.Dot`. -/
def Dot (a b : Vec F) : F := add (add (mul a.X b.X) (mul a.Y b.Y)) (mul a.Z b.Z)

end Vec

open GoFloat BinVOX

/-- `epsilon`, binvox/voxelize.go:12. -/
def epsilon {F : Type} [GoFloat F] : F := lit (1 / 1000000000 : ℚ)

/-- `intersectSegment`, binvox/voxelize.go:158-172; `none` is `false`. -/
def intersectSegment {F : Type} [GoFloat F] (v0 v1 : Vec F) (z : F) : Option (Vec F) :=
  let u := Vec.Sub v1 v0
  let w := Vec.Sub v0 ⟨ofInt 0, ofInt 0, z⟩
  let d := Vec.Dot ⟨ofInt 0, ofInt 0, ofInt 1⟩ u
  let n := Vec.Dot ⟨ofInt 0, ofInt 0, ofInt (-1)⟩ w
  if lt (neg epsilon) d && lt d epsilon then none
  else
    let t := div n d
    if lt t (ofInt 0) || lt (ofInt 1) t then none
    else some (Vec.Add v0 (Vec.MulScalar u t))

/-- `intersectionPair`, binvox/voxelize.go:124-128. -/
structure Pair (F : Type) where
  v1 : Vec F
  v2 : Vec F
  tri : Nat
deriving DecidableEq

/-- `intersectTriZPlane`, binvox/voxelize.go:141-155; the triangle is given by its pointer `p`
    and what it points to. -/
def intersectTriZPlane {F : Type} [GoFloat F] (p : Nat) (t : Triangle F) (z : F) :
    Option (Pair F) :=
  let r1 := intersectSegment t.V1.Position t.V2.Position z
  let r2 := intersectSegment t.V2.Position t.V3.Position z
  match r1, r2 with
  | some v1, some v2 => some ⟨v1, v2, p⟩
  | _, _ =>
    let r3 := intersectSegment t.V3.Position t.V1.Position z
    match r1, r2, r3 with
    | some v1, _, some v3 => some ⟨v1, v3, p⟩
    | none, some v2, some v3 => some ⟨v2, v3, p⟩
    | _, _, _ => none

/-- `intersectZPlane`, binvox/voxelize.go:131-138. -/
def intersectZPlane {F : Type} [GoFloat F] (m : Mesh F) (z : F) : List (Pair F) :=
  m.Triangles.filterMap fun p => intersectTriZPlane p (m.heap p) z

/-- The loop of `firstOctantBressenham`, binvox/voxelize.go:181-188: `n` iterations are left, `x`,
    `y`, `eps` are the loop variables; the points handed to `plotFunc` in order. -/
def bresLoop (dx dy : Int) : Nat → Int → Int → Int → List (Int × Int)
  | 0, _, _, _ => []
  | n + 1, x, y, eps =>
    let e := eps + dy
    (x, y) :: (if 2 * e ≥ dx then bresLoop dx dy n (x + 1) (y + 1) (e - dx)
               else bresLoop dx dy n (x + 1) y e)

/-- `firstOctantBressenham`, binvox/voxelize.go:175-189, as the list of its `plotFunc` calls.
    (`x <= x2i` makes `x2i - x1i + 1` iterations, none if that is negative.) -/
def firstOctant (x1 y1 x2 y2 : Int) : List (Int × Int) :=
  bresLoop (x2 - x1) (y2 - y1) (x2 - x1 + 1).toNat x1 y1 0

/-- The octant dispatch of `rasterizeShellPair`, binvox/voxelize.go:208-235: the `(x, y)` arguments
    `plotFunc` is called with, in order. -/
def rasterLine (x1 y1 x2 y2 : Int) : List (Int × Int) :=
  let dy := y2 - y1
  let dx := x2 - x1
  if dx ≥ 0 ∧ dy ≥ 0 ∧ dx ≥ dy then firstOctant x1 y1 x2 y2
  else if dx ≥ 0 ∧ dy ≥ 0 then (firstOctant y1 x1 y2 x2).map fun p => (p.2, p.1)
  else if dx < 0 ∧ dy ≥ 0 ∧ dy > -dx then (firstOctant y1 (-x1) y2 (-x2)).map fun p => (-p.2, p.1)
  else if dx < 0 ∧ dy ≥ 0 then (firstOctant (-x1) y1 (-x2) y2).map fun p => (-p.1, p.2)
  else if dx < 0 ∧ dy < 0 ∧ -dx ≥ -dy then
    (firstOctant (-x1) (-y1) (-x2) (-y2)).map fun p => (-p.1, -p.2)
  else if dx < 0 ∧ dy < 0 then (firstOctant (-y1) (-x1) (-y2) (-x2)).map fun p => (-p.2, -p.1)
  else if dx ≥ 0 ∧ dy < 0 ∧ -dy > dx then (firstOctant (-y1) x1 (-y2) x2).map fun p => (p.2, -p.1)
  else (firstOctant x1 (-y1) x2 (-y2)).map fun p => (p.1, -p.2)

/-- `setMap`, binvox/voxelize.go:15. -/
abbrev SetMap := GoMap Key (List Nat)

/-- `s[k]` (nil slice when absent). -/
def SetMap.at (s : SetMap) (k : Key) : List Nat := (s.get k).getD []

/-- `addTri`, binvox/voxelize.go:18-25: pointers are compared. -/
def addTri (s : SetMap) (k : Key) (tri : Nat) : SetMap :=
  if (s.at k).any (fun t => t == tri) then s else GoMap.set s k (s.at k ++ [tri])

/-- `xMinMaxMap`, binvox/voxelize.go:238-244: row ↦ (min, max). -/
abbrev XMinMax := GoMap Int (Int × Int)

/-- `xMinMaxMap.update`, binvox/voxelize.go:246-257. -/
def XMinMax.update (m : XMinMax) (xi yi : Int) : XMinMax :=
  match GoMap.get m yi with
  | some v =>
    let v := if xi < v.1 then (xi, v.2) else v
    let v := if xi > v.2 then (v.1, xi) else v
    GoMap.set m yi v
  | none => GoMap.set m yi (xi, xi)

/-- `plotFunc` of `rasterizeShellPair`, binvox/voxelize.go:198-205. -/
def plot (NY zi : Int) (tri : Nat) (st : SetMap × XMinMax) (p : Int × Int) : SetMap × XMinMax :=
  if p.2 ≥ 0 ∧ p.2 < NY then
    (addTri st.1 ⟨p.1, p.2, zi⟩ tri, XMinMax.update st.2 p.1 p.2)
  else st

/-- `int(math.Floor(vpmm * (c - t)))`, binvox/voxelize.go:193-196. -/
def gridCoord {F : Type} [GoFloat F] (vpmm c t : F) : Int := toInt (floor (mul vpmm (sub c t)))

/-- The points `rasterizeShellPair` hands to `plotFunc` for one pair,
    binvox/voxelize.go:192-236. -/
def pairPoints {F : Type} [GoFloat F] (b : BinVOX F) (vpmm : F) (q : Pair F) : List (Int × Int) :=
  rasterLine (gridCoord vpmm q.v1.X b.TX) (gridCoord vpmm q.v1.Y b.TY)
    (gridCoord vpmm q.v2.X b.TX) (gridCoord vpmm q.v2.Y b.TY)

/-- `rasterizeShellPair`, binvox/voxelize.go:192-236. -/
def rasterizeShellPair {F : Type} [GoFloat F] (b : BinVOX F) (zi : Int) (vpmm : F)
    (st : SetMap × XMinMax) (q : Pair F) : SetMap × XMinMax :=
  (pairPoints b vpmm q).foldl (plot b.NY zi q.tri) st

/-- The `switch d := tri.V1.Normal.Dot(gl.V(-1,0,0))` of `floodFill`, binvox/voxelize.go:280-286:
    `1` for entering, `-1` for leaving, `0` otherwise. -/
def crossing {F : Type} [GoFloat F] (m : Mesh F) (p : Nat) : Int :=
  let d := Vec.Dot (m.heap p).V1.Normal ⟨ofInt (-1), ofInt 0, ofInt 0⟩
  if lt epsilon d then 1 else if lt d (neg epsilon) then -1 else 0

/-- State of the inner loop of `floodFill`, binvox/voxelize.go:274-287: seen triangles, inCount,
    outCount. -/
structure FillCount where
  seen : List Nat
  inCount : Int
  outCount : Int

/-- One triangle of the inner loop of `floodFill`, binvox/voxelize.go:275-287. -/
def countTri {F : Type} [GoFloat F] (m : Mesh F) (s : FillCount) (p : Nat) : FillCount :=
  if s.seen.contains p then s
  else
    let c := crossing m p
    { seen := p :: s.seen
      inCount := if c = 1 then s.inCount + 1 else s.inCount
      outCount := if c = -1 then s.outCount + 1 else s.outCount }

/-- The row loop of `floodFill`, binvox/voxelize.go:267-300: `n` values of `xi` are left; the keys
    handed to `setVoxelFunc`, in order. -/
def fillRow {F : Type} [GoFloat F] (m : Mesh F) (NX yi zi : Int) (set : SetMap) :
    Nat → Int → Bool → List Nat → List Key
  | 0, _, _, _ => []
  | n + 1, xi, inside, seen =>
    if xi ≥ NX then []
    else
      let k : Key := ⟨xi, yi, zi⟩
      if (set.at k).length > 0 then
        let c := (set.at k).foldl (countTri m) ⟨seen, 0, 0⟩
        let inside' := if c.inCount > c.outCount then true
          else if c.inCount < c.outCount then false else inside
        k :: fillRow m NX yi zi set n (xi + 1) inside' c.seen
      else if inside ∧ xi ≥ 0 then k :: fillRow m NX yi zi set n (xi + 1) inside seen
      else fillRow m NX yi zi set n (xi + 1) inside seen

/-- The goroutine of one row of `floodFill`, binvox/voxelize.go:264-302: its `setVoxelFunc` calls
    (`xi := min; xi <= max` makes `max - min + 1` iterations). -/
def rowEvents {F : Type} [GoFloat F] (m : Mesh F) (NX zi : Int) (set : SetMap)
    (row : Int × (Int × Int)) : List Key :=
  fillRow m NX row.1 zi set (row.2.2 - row.2.1 + 1).toNat row.2.1 false []

/-- `z := b.TZ + (0.5+float64(zi))*dz`, binvox/voxelize.go:110. -/
def sliceHeight {F : Type} [GoFloat F] (b : BinVOX F) (zi : Int) : F :=
  add b.TZ (mul (add (lit (1/2)) (ofInt zi)) (div (ofInt 1) b.VoxelsPerMM))

/-- The shell set and row bounds `voxelizeZ` computes, binvox/voxelize.go:109-118. -/
def sliceShell {F : Type} [GoFloat F] (b : BinVOX F) (m : Mesh F) (zi : Int) : SetMap × XMinMax :=
  (intersectZPlane m (sliceHeight b zi)).foldl (rasterizeShellPair b zi b.VoxelsPerMM) ([], [])

/-- The goroutines `voxelizeZ` starts through `floodFill`, binvox/voxelize.go:107-121, 260-305: for
    each row its list of `setVoxelFunc` calls. -/
def sliceRows {F : Type} [GoFloat F] (b : BinVOX F) (m : Mesh F) (zi : Int) : List (List Key) :=
  (sliceShell b m zi).2.map (rowEvents m b.NX zi (sliceShell b m zi).1)

/-- `Interleave ls l`: `l` is a possible order of the events of the goroutines whose own events, in
    program order, are the lists `ls` (any scheduler; the start order of the goroutines, which
    depends on the map order, does not matter because any of them may go next). -/
inductive Interleave {α : Type} : List (List α) → List α → Prop where
  | done (ls : List (List α)) (h : ∀ x ∈ ls, x = []) : Interleave ls []
  | step (pre post : List (List α)) (a : α) (x l : List α)
      (h : Interleave (pre ++ x :: post) l) : Interleave (pre ++ (a :: x) :: post) (a :: l)

/-- `setVoxelFunc`, binvox/voxelize.go:45-49 and 92-96. -/
def setVoxel (m : WhiteVoxelMap) (k : Key) : WhiteVoxelMap := GoMap.set m k ()

/-- The zero-dimension check, binvox/voxelize.go:33-35 and 80-82. -/
def zeroDim {F : Type} (b : BinVOX F) : Prop := b.NX = 0 ∨ b.NY = 0 ∨ b.NZ = 0

instance {F : Type} (b : BinVOX F) : Decidable (zeroDim b) := by unfold zeroDim; infer_instance

/-- `VoxelizeZ`, binvox/voxelize.go:79-105: `VoxelizeZRun b mesh zi out` when some schedule of the
    row goroutines ends with result `out` (on error `b` is unchanged). -/
def VoxelizeZRun {F : Type} [GoFloat F] (b : BinVOX F) (m : Mesh F) (zi : Int)
    (out : Res (BinVOX F)) : Prop :=
  if zeroDim b then out = .err
  else ∃ ev, Interleave (sliceRows b m zi) ev ∧
    out = .ok { b with WhiteVoxels := some (ev.foldl setVoxel []) }

/-- `Voxelize`, binvox/voxelize.go:32-77: one goroutine per slice, each waiting for its own row
    goroutines, so all rows of all slices may interleave. -/
def VoxelizeRun {F : Type} [GoFloat F] (b : BinVOX F) (m : Mesh F) (out : Res (BinVOX F)) : Prop :=
  if zeroDim b then out = .err
  else ∃ ev, Interleave ((intRange 0 b.NZ).flatMap (sliceRows b m)) ev ∧
    out = .ok { b with WhiteVoxels := some (ev.foldl setVoxel []) }

end StlDice
