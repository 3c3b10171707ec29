import Verif.Model.Manifold
import Verif.Model.Voxcut
import Verif.Model.StlMerge
import Verif.Spec.StlText

/-!
# Meshes written to STL files: binvox/mesh.go and the commands manifold-mesh, marching-cubes, voxcut,
# merge-stl and merge-binvox from their arguments to the files they leave

`log.Fatal` ends a command with its files as they are.  Flags are taken as parsed.
-/

namespace StlDice
namespace Cmd
open GoFloat BinVOX

/-- The files, by name. -/
abbrev Disk := Bytes → Option Bytes

/-- Change one file. -/
def put (d : Disk) (name b : Bytes) : Disk := fun n => if n = name then some b else d n

/-- How a command ends. -/
inductive Exit where
  | done
  | fatal
  | panic
deriving DecidableEq

/-- The parts of the library fauxgl that are parameters: the float32 bits of a float64, the normal
    written for a triangle (smoothing only changes these), and `gl.NewVoxelMesh`. -/
structure GL (F : Type) where
  bits : F → Nat
  normal : Tri (Vec F) → Vec F
  voxelMesh : List Key → List (Tri (Vec F))

section
variable {F : Type}

/-- What `gl.Mesh.SaveSTL` (library) writes: a binary STL file with a header of 80 zero bytes. -/
def GL.stl (lib : GL F) (ts : List (Tri (Vec F))) : Bytes :=
  Spec.stlBinary (List.replicate 80 0) lib.bits lib.normal (fun _ => (0, 0)) ts

/-- The possible outcomes of creating file `name` with this content: all of it is written and no error
    returned; it cannot be created; a part of it is written and an error returned. -/
inductive Save (d : Disk) (name content : Bytes) : Disk → Bool → Prop
  | ok : Save d name content (put d name content) true
  | notCreated : Save d name content d false
  | part {p : Bytes} (h : p <+: content) : Save d name content (put d name p) false

/-- `mesh.Transform(m)` with the matrix of binvox/mesh.go:35-43 on one coordinate.  The matrix has
    the entry `mmpv` on the diagonal and `mmpv*0.5 + T` in the last column (fauxgl multiplies matrices
    from the left).  Simplification: products with the entries 0 and 1 are left out. -/
def place1 [GoFloat F] (mmpv t x : F) : F := add (mul mmpv x) (add (mul mmpv (lit (1 / 2))) t)

/-- `mesh.Transform(m)` on one vertex, binvox/mesh.go:35-43. -/
def place [GoFloat F] (b : BinVOX F) (p : Vec F) : Vec F :=
  let mmpv : F := div (ofInt 1) b.VoxelsPerMM
  ⟨place1 mmpv b.TX p.X, place1 mmpv b.TY p.Y, place1 mmpv b.TZ p.Z⟩

/-- `ToMesh`, binvox/mesh.go:10-49: the voxels are listed in the order of the two `range` loops. -/
def ToMeshRun [GoFloat F] (lib : GL F) (b : BinVOX F) (tris : List (Tri (Vec F))) : Prop :=
  ∃ wo co : List Key, wo.Perm b.white.keys ∧ co.Perm b.color.keys ∧
    tris = (lib.voxelMesh (wo ++ co)).map (Spec.moveTri (place b))

/-- Content of a file as an input that ends cleanly. -/
def input (d : Disk) (name : Bytes) : Option Input := (d name).map fun b => ⟨b, true⟩

/-- The part of `main` the commands manifold-mesh (cmd/manifold-mesh/manifold-mesh.go:18-43) and
    marching-cubes (cmd/marching-cubes/marching-cubes.go:19-44) share: `mesh b tris` says that
    `tris` is a possible result of `model.ManifoldMesh()` resp. `model.MarchingCubes()`. -/
inductive ConvertRun [FloatText F] (mesh : BinVOX F → List (Tri (Vec F)) → Prop) (lib : GL F) (d : Disk) :
    List Bytes → Disk → Exit → Prop
  /-- `flag.NArg() != 2` -/
  | usage {args} (h : args.length ≠ 2) : ConvertRun mesh lib d args d .fatal
  /-- `binvox.Read` fails -/
  | unreadable {i o} (h : BinVOX.Read (F := F) (input d i) ⟨0, 0, 0, 0, 0, 0⟩ = none) :
      ConvertRun mesh lib d [i, o] d .fatal
  /-- the mesh is saved, or not -/
  | saved {i o b tris d' ok} (h : BinVOX.Read (F := F) (input d i) ⟨0, 0, 0, 0, 0, 0⟩ = some b)
      (ht : mesh b tris) (hs : Save d o (lib.stl tris) d' ok) :
      ConvertRun mesh lib d [i, o] d' (if ok then .done else .fatal)

/-- `main` of manifold-mesh, cmd/manifold-mesh/manifold-mesh.go:18-43. -/
def ManifoldCmd [GoFloat F] [FloatText F] (lib : GL F) (d : Disk) (args : List Bytes) (d' : Disk) (e : Exit) : Prop :=
  ConvertRun (F := F) Manifold.ManifoldRun lib d args d' e

/-- `main` of marching-cubes, cmd/marching-cubes/marching-cubes.go:19-44. -/
def MarchingCmd [GoFloat F] [FloatText F] (lib : GL F) (d : Disk) (args : List Bytes) (d' : Disk) (e : Exit) : Prop :=
  ConvertRun (F := F) Marching.MarchingRun lib d args d' e

/-- The flags of voxcut, cmd/voxcut/voxcut.go:29-40, and its file arguments. -/
structure CutFlags where
  obinvox : Bytes
  ostl : Bytes
  ovox : Bytes
  region : Region
  manifold : Bool
  files : List Bytes

/-- The `-obinvox` output, cmd/voxcut/voxcut.go:82-88: files and `err == nil`. -/
def outBinvox [FloatText F] (fl : CutFlags) (b : BinVOX F) (env : FileEnv) (d : Disk) : Disk × Bool :=
  if fl.obinvox = [] then (d, true)
  else
    let res := b.Write env fl.region
    (match res.1 with
      | none => d
      | some c => put d fl.obinvox c, res.2)

/-- The `-ovox` output, cmd/voxcut/voxcut.go:90-102; `m` is the map in the order in which the `range`
    loop visits it. -/
def outVox (fl : CutFlags) (m : WhiteVoxelMap) (env : FileEnv) (d : Disk) : Disk × Bool :=
  if fl.ovox = [] then (d, true)
  else if !env.createOk then (d, false)
  else
    let res := writeVOX ⟨[], env.plan⟩ m
    (put d fl.ovox res.1.out, res.2 && env.closeOk)

/-- The `-ostl` output, cmd/voxcut/voxcut.go:104-122. -/
inductive OutStl [GoFloat F] (lib : GL F) (fl : CutFlags) (b : BinVOX F) (d : Disk) : Disk → Bool → Prop
  | none (h : fl.ostl = []) : OutStl lib fl b d d true
  | manifold {tris d' ok} (h : fl.ostl ≠ []) (hm : fl.manifold = true) (ht : Manifold.ManifoldRun b tris)
      (hs : Save d fl.ostl (lib.stl tris) d' ok) : OutStl lib fl b d d' ok
  | cubes {tris d' ok} (h : fl.ostl ≠ []) (hm : fl.manifold = false) (ht : ToMeshRun lib b tris)
      (hs : Save d fl.ostl (lib.stl tris) d' ok) : OutStl lib fl b d d' ok

/-- The model after the reads and cuts of `main` of voxcut, cmd/voxcut/voxcut.go:51-80: all files are
    read with the same region; `none` is a fatal exit. -/
def cutModel [GoFloat F] [FloatText F] (d : Disk) (fl : CutFlags) : Option (BinVOX F) :=
  match fl.files with
  | [] => none
  | base :: cuts =>
    if fl.obinvox = [] ∧ fl.ostl = [] ∧ fl.ovox = [] then none
    else match BinVOX.Read (F := F) (input d base) fl.region with
      | none => none
      | some b => voxcutLoop b (cuts.map fun f => BinVOX.Read (F := F) (input d f) fl.region)

/-- `main` of voxcut, cmd/voxcut/voxcut.go:43-125: the outputs are written in this order, a failing
    one ends the command. -/
inductive VoxcutRun [GoFloat F] [FloatText F] (lib : GL F) (d : Disk) (fl : CutFlags) : Disk → Exit → Prop
  | fatal (h : cutModel (F := F) d fl = none) : VoxcutRun lib d fl d .fatal
  | binvoxFails {b env} (h : cutModel (F := F) d fl = some b) (h1 : (outBinvox fl b env d).2 = false) :
      VoxcutRun lib d fl (outBinvox fl b env d).1 .fatal
  | voxFails {b env m env2} (h : cutModel (F := F) d fl = some b) (h1 : (outBinvox fl b env d).2 = true)
      (hm : m.Perm b.white) (h2 : (outVox fl m env2 (outBinvox fl b env d).1).2 = false) :
      VoxcutRun lib d fl (outVox fl m env2 (outBinvox fl b env d).1).1 .fatal
  | last {b env m env2 d' ok} (h : cutModel (F := F) d fl = some b) (h1 : (outBinvox fl b env d).2 = true)
      (hm : m.Perm b.white) (h2 : (outVox fl m env2 (outBinvox fl b env d).1).2 = true)
      (h3 : OutStl lib fl b (outVox fl m env2 (outBinvox fl b env d).1).1 d' ok) :
      VoxcutRun lib d fl d' (if ok then .done else .fatal)

/-- `main` of merge-stl after `filepath.Glob`, cmd/merge-stl/merge-stl.go:29-57: `globbed` are the
    matching names, `load` is `gl.LoadSTL` on the present files.  With no file left to merge the mesh
    is nil; `SaveSTL` creates the file and then dereferences nil for the number of triangles (library). -/
inductive MergeStlRun (load : Bytes → Option (List (Tri (Vec F)))) (lib : GL F) (d : Disk) (pre : Bytes)
    (force : Bool) (workers : Nat) (globbed : List Bytes) : Disk → Exit → Prop
  | refused (h : mergeInputs (pre ++ ascii ".stl") force globbed = none) :
      MergeStlRun load lib d pre force workers globbed d .fatal
  | failed {files s} (h : mergeInputs (pre ++ ascii ".stl") force globbed = some files)
      (hr : PoolReach load workers (Pool.init files) s) (he : s.returned = some none) :
      MergeStlRun load lib d pre force workers globbed d .fatal
  | nilMesh {files s} (h : mergeInputs (pre ++ ascii ".stl") force globbed = some files)
      (hr : PoolReach load workers (Pool.init files) s) (he : s.returned = some (some none)) :
      MergeStlRun load lib d pre force workers globbed (put d (pre ++ ascii ".stl") []) .panic
  | nilNotCreated {files s} (h : mergeInputs (pre ++ ascii ".stl") force globbed = some files)
      (hr : PoolReach load workers (Pool.init files) s) (he : s.returned = some (some none)) :
      MergeStlRun load lib d pre force workers globbed d .fatal
  | saved {files s tris d' ok} (h : mergeInputs (pre ++ ascii ".stl") force globbed = some files)
      (hr : PoolReach load workers (Pool.init files) s) (he : s.returned = some (some (some tris)))
      (hs : Save d (pre ++ ascii ".stl") (lib.stl tris) d' ok) :
      MergeStlRun load lib d pre force workers globbed d' (if ok then .done else .fatal)

/-- `main` of merge-binvox after `filepath.Glob`, cmd/merge-binvox/merge-binvox.go:29-57: `sch` are
    the runtime's choices for each file.  With no file the shell is nil: `Write` creates the file and
    `write` dereferences nil, vshell/write.go:16-20, 40. -/
inductive MergeBinvoxRun [GoFloat F] [FloatText F] (d : Disk) (sch : Bytes → AddSched) (pre : Bytes) (force : Bool)
    (globbed : List Bytes) : Disk → Exit → Prop
  | refused (h : mergeInputs (pre ++ ascii ".vsh") force globbed = none) :
      MergeBinvoxRun d sch pre force globbed d .fatal
  | failed {files} (h : mergeInputs (pre ++ ascii ".vsh") force globbed = some files)
      (hm : VShell.Merge (files.map fun f => (sch f, BinVOX.Read (F := F) (input d f) ⟨0, 0, 0, 0, 0, 0⟩)) = none) :
      MergeBinvoxRun d sch pre force globbed d .fatal
  | nilShell {files} (created : Bool) (h : mergeInputs (pre ++ ascii ".vsh") force globbed = some files)
      (hm : VShell.Merge (files.map fun f => (sch f, BinVOX.Read (F := F) (input d f) ⟨0, 0, 0, 0, 0, 0⟩)) = some none) :
      MergeBinvoxRun d sch pre force globbed (if created then put d (pre ++ ascii ".vsh") [] else d)
        (if created then .panic else .fatal)
  | written {files vs} (env : FileEnv) (h : mergeInputs (pre ++ ascii ".vsh") force globbed = some files)
      (hm : VShell.Merge (files.map fun f => (sch f, BinVOX.Read (F := F) (input d f) ⟨0, 0, 0, 0, 0, 0⟩)) = some (some vs)) :
      MergeBinvoxRun d sch pre force globbed
        (match (vs.Write env ⟨0, 0, 0, 0, 0, 0⟩).1 with
          | none => d
          | some c => put d (pre ++ ascii ".vsh") c)
        (if (vs.Write env ⟨0, 0, 0, 0, 0, 0⟩).2 then .done else .fatal)

end
end Cmd
end StlDice
