import Verif.Model.VShellIO
import Verif.Model.SvxRead
import Verif.Model.Voxelize

/-!
# The repository's own unit tests, run on the model

The cases of `TestRead` (binvox/read_test.go, vshell/read_test.go), `TestAdd` and `TestDiffKeys`
(vshell/merge_test.go), `TestParseManifest` (cmd/svx2stl/main_test.go) and `TestVoxelize`
(binvox/voxelize_test.go), computed by the kernel.  They are tests of the model against the
expectations of the code's author, not properties.  `TestManifoldMesh` is in `ManifoldTest.lean`.
-/

namespace StlDice
namespace Validate

/-- Decimal numbers such as `-2.6`, enough for the headers of the tests. -/
def parseDec (bs : Bytes) : Option ℚ :=
  let (neg, ds) := match bs with
    | 45 :: t => (true, t)
    | t => (false, t)
  let (a, b) := ds.span isDigit
  let v : ℚ := match b with
    | 46 :: f => (digitsVal a : ℚ) + (digitsVal f : ℚ) / 10 ^ f.length
    | _ => digitsVal a
  some (if neg then -v else v)

/-- The text form used in this file. -/
@[reducible] def decText : FloatText ℚ := ⟨fun _ => [], parseDec⟩

/-! ## `TestRead`, binvox/read_test.go -/

/-- The header of a test file. -/
def testHeader (magic : String) (n : String) : Bytes :=
  ascii magic ++ ascii " 1\n" ++ ascii "dim " ++ ascii n ++ ascii "\ntranslate -80 -80 -2.6\nscale 160\ndata\n"

/-- `read` of a test file: dimensions, translation and scale, and the voxels found. -/
def readTest (n : String) (data : Bytes) (r : Region) : Option ((Int × Int × Int) × (ℚ × ℚ × ℚ) × ℚ × List Key) :=
  (@BinVOX.read ℚ decText ⟨testHeader "#binvox" n ++ data, true⟩ r).map fun b =>
    ((b.NX, b.NY, b.NZ), (b.TX, b.TY, b.TZ), b.Scale, b.white.keys)

example : readTest "256 256 256" [] ⟨0, 0, 0, 0, 0, 0⟩ = some ((256, 256, 256), (-80, -80, -13 / 5), 160, []) := by
  decide +kernel
example : readTest "256 256 256" [0, 5, 1, 3] ⟨0, 0, 0, 0, 0, 0⟩ =
    some ((256, 256, 256), (-80, -80, -13 / 5), 160, [⟨0, 5, 0⟩, ⟨0, 6, 0⟩, ⟨0, 7, 0⟩]) := by
  decide +kernel
example : readTest "2 2 2" [0, 5, 1, 3] ⟨0, 0, 0, 0, 0, 0⟩ =
    some ((2, 2, 2), (-80, -80, -13 / 5), 160, [⟨1, 1, 0⟩, ⟨1, 0, 1⟩, ⟨1, 1, 1⟩]) := by
  decide +kernel
example : readTest "2 2 2" [0, 5, 1, 3] ⟨1, 1, 1, 1, 1, 1⟩ =
    some ((2, 2, 2), (-80, -80, -13 / 5), 160, [⟨1, 1, 1⟩]) := by
  decide +kernel

/-! ## `TestRead`, vshell/read_test.go -/

/-- `read` of a test file. -/
def vreadTest (n : String) (data : Bytes) (r : Region) : Option (VShell ℚ) :=
  @VShell.read ℚ decText ⟨testHeader "#vshell" n ++ data, true⟩ r

example : vreadTest "256 256 256" [] ⟨0, 0, 0, 0, 0, 0⟩ = some ⟨256, 256, 256, -80, -80, -13 / 5, 160, []⟩ := by
  decide +kernel
example : vreadTest "256 256 256" [0, 0, 0, 0, 5, 0, 1, 0, 0, 0, 3] ⟨0, 0, 0, 0, 0, 0⟩ =
    some ⟨256, 256, 256, -80, -80, -13 / 5, 160, [⟨0, 5, 0, 1⟩, ⟨0, 6, 0, 1⟩, ⟨0, 7, 0, 1⟩]⟩ := by
  decide +kernel
example : vreadTest "2 2 2" [0, 0, 0, 0, 5, 0, 1, 0, 0, 0, 3] ⟨0, 0, 0, 0, 0, 0⟩ =
    some ⟨2, 2, 2, -80, -80, -13 / 5, 160, [⟨1, 1, 0, 1⟩, ⟨1, 0, 1, 1⟩, ⟨1, 1, 1, 1⟩]⟩ := by
  decide +kernel
example : vreadTest "2 2 2" [0, 0, 0, 0, 5, 0, 1, 0, 0, 0, 3] ⟨1, 1, 1, 1, 1, 1⟩ =
    some ⟨2, 2, 2, -80, -80, -13 / 5, 160, [⟨1, 1, 1, 1⟩]⟩ := by
  decide +kernel

/-! ## `TestAdd`, vshell/merge_test.go -/

/-- The order of `sortVoxels`, vshell/merge_test.go:250-265. -/
def voxLess (a b : VShVoxel) : Bool :=
  if a.Z < b.Z then true else if a.Z > b.Z then false
  else if a.Y < b.Y then true else if a.Y > b.Y then false else a.X < b.X

/-- Insertion into a sorted list. -/
def insertVox (t : VShVoxel) : List VShVoxel → List VShVoxel
  | [] => [t]
  | u :: us => if voxLess u t then u :: insertVox t us else t :: u :: us

/-- The shell with sorted voxels. -/
def _root_.StlDice.VShell.sorted (v : VShell ℚ) : VShell ℚ := { v with Voxels := v.Voxels.foldr insertVox [] }

/-- `Add` with the map visited in the order `ks` and no spare capacity, then sorted. -/
def addTest (vs : VShell ℚ) (bv : BinVOX ℚ) (ks : List Key) : Option (VShell ℚ) :=
  let d : Int × Int × Int := if vs.Voxels = [] then (0, 0, 0) else
    match vs.update bv with
    | none => (0, 0, 0)
    | some (_, dx, dy, dz) => (dx, dy, dz)
  (vs.Add ⟨ks, [], ks.map fun k => k.shift d.1 d.2.1 d.2.2, vs.Voxels.length⟩ bv).map VShell.sorted

-- "null pointers"
example : (VShell.AddPtr (F := ℚ) ⟨[], [], [], 0⟩ none none).2 = false := by decide +kernel
-- "mismatched vpmm"
example : addTest ⟨1, 1, 1, 0, 0, 0, 1, [⟨0, 0, 0, 0⟩]⟩ (BinVOX.New 1 1 1 0 0 0 2 false) [] = none := by decide +kernel

/-- "empty voxels", vshell/merge_test.go: the shell before. -/
def addBefore1 : VShell ℚ :=
  ⟨0, 0, 0, 0, 0, 0, 1, []⟩

/-- The voxels added. -/
def addKeys1 : List Key := []

/-- The shell expected. -/
def addWant1 : VShell ℚ :=
  ⟨0, 0, 0, 0, 0, 0, 1, []⟩

example : addTest addBefore1 ⟨0, 0, 0, 0, 0, 0, 1, some (addKeys1.map fun k => (k, ())), none⟩ addKeys1 = some addWant1.sorted := by
  decide +kernel

/-- "no adjustment necessary", vshell/merge_test.go: the shell before. -/
def addBefore2 : VShell ℚ :=
  ⟨0, 0, 0, 0, 0, 0, 1, [⟨0, 0, 0, 0⟩]⟩

/-- The voxels added. -/
def addKeys2 : List Key := []

/-- The shell expected. -/
def addWant2 : VShell ℚ :=
  ⟨0, 0, 0, 0, 0, 0, 1, [⟨0, 0, 0, 0⟩]⟩

example : addTest addBefore2 ⟨0, 0, 0, 0, 0, 0, 1, some (addKeys2.map fun k => (k, ())), none⟩ addKeys2 = some addWant2.sorted := by
  decide +kernel

/-- "binvox offset by 1,1,1", vshell/merge_test.go: the shell before. -/
def addBefore3 : VShell ℚ :=
  ⟨1, 1, 1, 0, 0, 0, 1, [⟨0, 0, 0, 0⟩]⟩

/-- The voxels added. -/
def addKeys3 : List Key := [⟨0, 0, 0⟩]

/-- The shell expected. -/
def addWant3 : VShell ℚ :=
  ⟨2, 2, 2, 0, 0, 0, 2, [⟨0, 0, 0, 0x4000000#32⟩,
    ⟨1, 1, 1, 0x1#32⟩]⟩

example : addTest addBefore3 ⟨1, 1, 1, 1, 1, 1, 1, some (addKeys3.map fun k => (k, ())), none⟩ addKeys3 = some addWant3.sorted := by
  decide +kernel

/-- "vshell update needed", vshell/merge_test.go: the shell before. -/
def addBefore4 : VShell ℚ :=
  ⟨1, 1, 1, 0, 0, 0, 1, [⟨0, 0, 0, 0⟩]⟩

/-- The voxels added. -/
def addKeys4 : List Key := [⟨0, 0, 0⟩]

/-- The shell expected. -/
def addWant4 : VShell ℚ :=
  ⟨2, 2, 2, -1, -1, -1, 2, [⟨1, 1, 1, 0x1#32⟩,
    ⟨0, 0, 0, 0x4000000#32⟩]⟩

example : addTest addBefore4 ⟨1, 1, 1, -1, -1, -1, 1, some (addKeys4.map fun k => (k, ())), none⟩ addKeys4 = some addWant4.sorted := by
  decide +kernel

/-- "remove middle voxel in 3x3x3 cube of voxels", vshell/merge_test.go: the shell before. -/
def addBefore5 : VShell ℚ :=
  ⟨3, 3, 3, 0, 0, 0, 1, []⟩

/-- The voxels added. -/
def addKeys5 : List Key := [⟨0, 0, 0⟩, ⟨0, 1, 0⟩, ⟨0, 2, 0⟩, ⟨0, 0, 1⟩, ⟨0, 1, 1⟩, ⟨0, 2, 1⟩, ⟨0, 0, 2⟩, ⟨0, 1, 2⟩, ⟨0, 2, 2⟩, ⟨1, 0, 0⟩, ⟨1, 1, 0⟩, ⟨1, 2, 0⟩, ⟨1, 0, 1⟩, ⟨1, 1, 1⟩, ⟨1, 2, 1⟩, ⟨1, 0, 2⟩, ⟨1, 1, 2⟩, ⟨1, 2, 2⟩, ⟨2, 0, 0⟩, ⟨2, 1, 0⟩, ⟨2, 2, 0⟩, ⟨2, 0, 1⟩, ⟨2, 1, 1⟩, ⟨2, 2, 1⟩, ⟨2, 0, 2⟩, ⟨2, 1, 2⟩, ⟨2, 2, 2⟩]

/-- The shell expected. -/
def addWant5 : VShell ℚ :=
  ⟨3, 3, 3, 0, 0, 0, 1, [⟨0, 0, 0, 0x6c34000#32⟩,
    ⟨1, 0, 0, 0x6c341b0#32⟩,
    ⟨2, 0, 0, 0x341b0#32⟩,
    ⟨0, 1, 0, 0x6db4c00#32⟩,
    ⟨1, 1, 0, 0x6db4db6#32⟩,
    ⟨2, 1, 0, 0x34db6#32⟩,
    ⟨0, 2, 0, 0xd84c00#32⟩,
    ⟨1, 2, 0, 0xd84c36#32⟩,
    ⟨2, 2, 0, 0x4c36#32⟩,
    ⟨0, 0, 1, 0x7e3d000#32⟩,
    ⟨1, 0, 1, 0x7e3d1f8#32⟩,
    ⟨2, 0, 1, 0x3d1f8#32⟩,
    ⟨0, 1, 1, 0x7ffde00#32⟩,
    ⟨2, 1, 1, 0x3dfff#32⟩,
    ⟨0, 2, 1, 0xfc5e00#32⟩,
    ⟨1, 2, 1, 0xfc5e3f#32⟩,
    ⟨2, 2, 1, 0x5e3f#32⟩,
    ⟨0, 0, 2, 0x3619000#32⟩,
    ⟨1, 0, 2, 0x36190d8#32⟩,
    ⟨2, 0, 2, 0x190d8#32⟩,
    ⟨0, 1, 2, 0x36d9600#32⟩,
    ⟨1, 1, 2, 0x36d96db#32⟩,
    ⟨2, 1, 2, 0x196db#32⟩,
    ⟨0, 2, 2, 0x6c1600#32⟩,
    ⟨1, 2, 2, 0x6c161b#32⟩,
    ⟨2, 2, 2, 0x161b#32⟩]⟩

example : addTest addBefore5 ⟨3, 3, 3, 0, 0, 0, 1, some (addKeys5.map fun k => (k, ())), none⟩ addKeys5 = some addWant5.sorted := by
  decide +kernel

/-- "remove previous vshell voxel due to abutted edge voxels", vshell/merge_test.go: the shell before. -/
def addBefore6 : VShell ℚ :=
  ⟨1, 3, 3, 0, 0, 0, 1, [⟨0, 0, 0, 0x7bfdfff#32⟩,
    ⟨0, 1, 0, 0x7bfdfff#32⟩,
    ⟨0, 2, 0, 0x7bfdfff#32⟩,
    ⟨0, 0, 1, 0x7bfdfff#32⟩,
    ⟨0, 1, 1, 0x7bfdfff#32⟩,
    ⟨0, 2, 1, 0x7bfdfff#32⟩,
    ⟨0, 0, 2, 0x7bfdfff#32⟩,
    ⟨0, 1, 2, 0x7bfdfff#32⟩,
    ⟨0, 2, 2, 0x7bfdfff#32⟩]⟩

/-- The voxels added. -/
def addKeys6 : List Key := [⟨1, 0, 0⟩, ⟨1, 1, 0⟩, ⟨1, 2, 0⟩, ⟨1, 0, 1⟩, ⟨1, 1, 1⟩, ⟨1, 2, 1⟩, ⟨1, 0, 2⟩, ⟨1, 1, 2⟩, ⟨1, 2, 2⟩, ⟨2, 0, 0⟩, ⟨2, 1, 0⟩, ⟨2, 2, 0⟩, ⟨2, 0, 1⟩, ⟨2, 1, 1⟩, ⟨2, 2, 1⟩, ⟨2, 0, 2⟩, ⟨2, 1, 2⟩, ⟨2, 2, 2⟩]

/-- The shell expected. -/
def addWant6 : VShell ℚ :=
  ⟨3, 3, 3, 0, 0, 0, 1, [⟨1, 0, 0, 0x6c341b0#32⟩,
    ⟨1, 0, 1, 0x7e3d1f8#32⟩,
    ⟨1, 0, 2, 0x36190d8#32⟩,
    ⟨1, 1, 0, 0x6db4db6#32⟩,
    ⟨1, 1, 2, 0x36d96db#32⟩,
    ⟨1, 2, 0, 0xd84c36#32⟩,
    ⟨1, 2, 1, 0xfc5e3f#32⟩,
    ⟨1, 2, 2, 0x6c161b#32⟩,
    ⟨2, 0, 0, 0x341b0#32⟩,
    ⟨2, 0, 1, 0x3d1f8#32⟩,
    ⟨2, 0, 2, 0x190d8#32⟩,
    ⟨2, 1, 0, 0x34db6#32⟩,
    ⟨2, 1, 1, 0x3dfff#32⟩,
    ⟨2, 1, 2, 0x196db#32⟩,
    ⟨2, 2, 0, 0x4c36#32⟩,
    ⟨2, 2, 1, 0x5e3f#32⟩,
    ⟨2, 2, 2, 0x161b#32⟩]⟩

example : addTest addBefore6 ⟨3, 3, 3, 0, 0, 0, 1, some (addKeys6.map fun k => (k, ())), none⟩ addKeys6 = some addWant6.sorted := by
  decide +kernel

/-! ## `TestDiffKeys`, vshell/merge_test.go:267-325 -/

example : diffKeys ⟨0, 0, 0⟩ ⟨0, 0, 0⟩ = 0 := by decide +kernel
example : diffKeys ⟨0, 0, 0⟩ ⟨1, 0, 0⟩ = 1 <<< 22 := by decide +kernel
example : diffKeys ⟨0, 0, 0⟩ ⟨0, 0, 1⟩ = 1 <<< 14 := by decide +kernel
example : diffKeys ⟨0, 0, 0⟩ ⟨0, 1, 0⟩ = 1 <<< 16 := by decide +kernel
example : diffKeys ⟨0, 0, 0⟩ ⟨-1, 0, 0⟩ = 1 <<< 4 := by decide +kernel

/-! ## `TestParseManifest`, cmd/svx2stl/main_test.go -/

/-- The decoded manifest of the test. -/
def testGrid : SvxGrid ℚ :=
  ⟨660, 150, 150, 1 / 5000, [⟨true, some ⟨ascii "density/slice", 4, ascii ".png"⟩⟩]⟩

example : (parseManifest (some testGrid)).map (fun r => ((r.1.NX, r.1.NY, r.1.NZ), r.1.Scale, r.1.white.keys, r.2.pre, r.2.width)) =
    some ((660, 150, 150), 1 / 5, [], ascii "density/slice", 4) := by decide +kernel

/-! ## `TestVoxelize`, binvox/voxelize_test.go

The cube comes from the library (`gl.NewCube`); it is built here with half edge `h`, because the side
length depends on the version of the library.  The expected voxels are the same. -/

/-- The corner with the given signs. -/
def cubeV (h : ℚ) (x y z : Bool) : BinVOX.Vec ℚ := ⟨if x then h else -h, if y then h else -h, if z then h else -h⟩

/-- A triangle with its face normal at every vertex. -/
def faceTri (n a b c : BinVOX.Vec ℚ) : Triangle ℚ := ⟨⟨a, n⟩, ⟨b, n⟩, ⟨c, n⟩⟩

/-- The twelve triangles of `gl.NewCube`. -/
def cubeTris (h : ℚ) : List (Triangle ℚ) :=
  let v (i : Nat) : BinVOX.Vec ℚ := cubeV h (i / 4 % 2 = 1) (i / 2 % 2 = 1) (i % 2 = 1)
  [faceTri ⟨0, 0, 1⟩ (v 3) (v 5) (v 7), faceTri ⟨0, 0, 1⟩ (v 5) (v 3) (v 1),
   faceTri ⟨0, 0, -1⟩ (v 0) (v 6) (v 4), faceTri ⟨0, 0, -1⟩ (v 6) (v 0) (v 2),
   faceTri ⟨0, -1, 0⟩ (v 0) (v 5) (v 1), faceTri ⟨0, -1, 0⟩ (v 5) (v 0) (v 4),
   faceTri ⟨1, 0, 0⟩ (v 5) (v 6) (v 7), faceTri ⟨1, 0, 0⟩ (v 6) (v 5) (v 4),
   faceTri ⟨0, 1, 0⟩ (v 6) (v 3) (v 7), faceTri ⟨0, 1, 0⟩ (v 3) (v 6) (v 2),
   faceTri ⟨-1, 0, 0⟩ (v 0) (v 3) (v 2), faceTri ⟨-1, 0, 0⟩ (v 3) (v 0) (v 1)]

/-- The mesh of the cube. -/
def cubeMesh (h : ℚ) : Mesh ℚ where
  heap i := (cubeTris h).getD i (faceTri ⟨0, 0, 0⟩ ⟨0, 0, 0⟩ ⟨0, 0, 0⟩ ⟨0, 0, 0⟩)
  Triangles := List.range 12

/-- `Voxelize` with the goroutines run one after the other. -/
def voxTest (h : ℚ) (n : Int) : List Key :=
  let b : BinVOX ℚ := ⟨n, n, n, -1, -1, -1, 2, none, none⟩
  (((intRange 0 b.NZ).flatMap (sliceRows b (cubeMesh h))).flatten.foldl setVoxel []).keys

/-- Same elements. -/
def sameKeys (a b : List Key) : Bool := a.all (b.contains ·) && b.all (a.contains ·)

/-- The cube of side `n`. -/
def cubeKeys (n : Int) : List Key :=
  (intRange 0 n).flatMap fun x => (intRange 0 n).flatMap fun y => (intRange 0 n).map fun z => ⟨x, y, z⟩

example : sameKeys (voxTest 1 1) (cubeKeys 1) = true := by decide +kernel
example : sameKeys (voxTest 1 2) (cubeKeys 2) = true := by decide +kernel
example : sameKeys (voxTest (1 / 2) 1) (cubeKeys 1) = true := by decide +kernel
example : sameKeys (voxTest (1 / 2) 2) (cubeKeys 2) = true := by decide +kernel

end Validate
end StlDice
