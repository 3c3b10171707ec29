import Verif.Model.Voxelize

/-! # Dicing a mesh into tiles: cmd/stldice/stldice.go, stl2svx/stl/stl.go, cmd/stldice-mr -/

namespace StlDice
open GoFloat BinVOX

/-- What `diceMesh` computes before its loops, cmd/stldice/stldice.go:126-152; the same text is in
    stl2svx/stl/stl.go:49-68 and cmd/stldice-mr/stldice-mr.go:109-128. -/
structure Layout (F : Type) where
  vpmm : F
  mmpv : F
  modelX : Int
  modelY : Int
  modelZ : Int
  dimX : Int
  dimY : Int
  dimZ : Int
  subScale : F
deriving DecidableEq

/-- The widest side of the box, cmd/stldice/stldice.go:78-84, stl2svx/stl/stl.go:42-48,
    cmd/stldice-mr/stldice-mr.go:101-107. -/
def boxScale {F : Type} [GoFloat F] (mbb : Box F) : F :=
  let scale := sub mbb.Max.X mbb.Min.X
  let scale := if lt scale (sub mbb.Max.Y mbb.Min.Y) then sub mbb.Max.Y mbb.Min.Y else scale
  let scale := if lt scale (sub mbb.Max.Z mbb.Min.Z) then sub mbb.Max.Z mbb.Min.Z else scale
  scale

/-- `int(math.Ceil(modelDimInMM.X * vpmm))`, cmd/stldice/stldice.go:131-133. -/
def voxelsAlong {F : Type} [GoFloat F] (lo hi vpmm : F) : Int := toInt (ceil (mul (sub hi lo) vpmm))

/-- cmd/stldice/stldice.go:126-152; Go integer division truncates and panics for a zero divisor. -/
def layout {F : Type} [GoFloat F] (mbb : Box F) (scale : F) (dim nx ny nz : Int) : Res (Layout F) :=
  let vpmm : F := div (ofInt dim) scale
  let mmpv : F := div (ofInt 1) vpmm
  let mx := voxelsAlong mbb.Min.X mbb.Max.X vpmm
  let my := voxelsAlong mbb.Min.Y mbb.Max.Y vpmm
  let mz := voxelsAlong mbb.Min.Z mbb.Max.Z vpmm
  if nx = 0 ∨ ny = 0 ∨ nz = 0 then .panic
  else
    let dx := mx.tdiv nx
    let dy := my.tdiv ny
    let dz := mz.tdiv nz
    if dx = 0 ∨ dy = 0 ∨ dz = 0 then .err
    else .ok ⟨vpmm, mmpv, mx, my, mz, dx, dy, dz, mul (ofInt (dimOf dx dy dz)) mmpv⟩

/-- The region of tile `t`, cmd/stldice/stldice.go:156, 158, 167-172. -/
def tileModel {F : Type} [GoFloat F] (L : Layout F) (mbb : Box F) (t : Key) : BinVOX F where
  NX := L.dimX
  NY := L.dimY
  NZ := L.dimZ
  TX := add mbb.Min.X (mul (ofInt (t.X * L.dimX)) L.mmpv)
  TY := add mbb.Min.Y (mul (ofInt (t.Y * L.dimY)) L.mmpv)
  TZ := add mbb.Min.Z (mul (ofInt (t.Z * L.dimZ)) L.mmpv)
  Scale := L.subScale
  WhiteVoxels := none
  ColorVoxels := none

/-- The loops over the tiles, cmd/stldice/stldice.go:155-159. -/
def tileIndices (nx ny nz : Int) : List Key :=
  (intRange 0 nz).flatMap fun zi => (intRange 0 ny).flatMap fun yi =>
    (intRange 0 nx).map fun xi => ⟨xi, yi, zi⟩

/-- `%02d` / `%04d` of a non-negative int (all uses are loop counters). -/
def padInt (w : Nat) (i : Int) : Bytes :=
  List.replicate (w - (fmtInt i).length) 48 ++ fmtInt i

/-- `fmt.Sprintf("%v-%02d-%02d-%02d", outPrefix, xi, yi, zi)`, cmd/stldice/stldice.go:160. -/
def tilePrefix (outPrefix : Bytes) (t : Key) : Bytes :=
  outPrefix ++ ascii "-" ++ padInt 2 t.X ++ ascii "-" ++ padInt 2 t.Y ++ ascii "-" ++ padInt 2 t.Z

/-- `newPrefix + ".binvox"`, cmd/stldice/stldice.go:161. -/
def tileFile (outPrefix : Bytes) (t : Key) : Bytes := tilePrefix outPrefix t ++ ascii ".binvox"

/-- `strings.TrimPrefix(s, p)`. -/
def trimPrefix (s p : Bytes) : Bytes := (stripPrefix p s).getD s

/-- `strings.TrimSuffix(s, ".stl")`, cmd/stldice/stldice.go:86. -/
def trimStl (s : Bytes) : Bytes :=
  match stripPrefix (ascii ".stl").reverse s.reverse with
  | some r => r.reverse
  | none => s

/-- `outPrefix`, cmd/stldice/stldice.go:86. -/
def jobPrefix (arg : Bytes) (dim nx ny nz : Int) : Bytes :=
  trimStl arg ++ ascii "-" ++ fmtInt dim ++ ascii "-" ++ fmtInt nx ++ ascii "-" ++ fmtInt ny ++
    ascii "-" ++ fmtInt nz

/-- A directory: file name ↦ content. -/
abbrev FS := GoMap Bytes Bytes

/-- The body of the loops, cmd/stldice/stldice.go:160-185, over the tiles `ts`: `vox t` is the model
    after `bv.Voxelize(mesh)` and `env t` the outcome of the system calls of `bv.Write`.
    Result: the directory and the prefixes (`none` = error returned).
    Simplification: `os.Stat` failing for another reason than a missing file is not modelled. -/
def diceLoop {F : Type} [FloatText F] (outPrefix : Bytes) (vox : Key → BinVOX F)
    (env : Key → FileEnv) : List Key → FS → List Bytes → FS × Option (List Bytes)
  | [], fs, pf => (fs, some pf)
  | t :: ts, fs, pf =>
    if fs.has (tileFile outPrefix t) then diceLoop outPrefix vox env ts fs pf
    else if (vox t).white.length = 0 then diceLoop outPrefix vox env ts fs pf
    else
      let res := (vox t).Write (env t) ⟨0, 0, 0, 0, 0, 0⟩
      let fs := match res.1 with
        | none => fs
        | some c => fs.set (tileFile outPrefix t) c
      if res.2 then
        diceLoop outPrefix vox env ts fs (pf ++ [trimPrefix (tilePrefix outPrefix t) outPrefix])
      else (fs, none)

/-- `diceMesh`, cmd/stldice/stldice.go:125-190, after the layout: `vox` must be possible results of
    `Voxelize` for the tiles. -/
def DiceRun {F : Type} [GoFloat F] [FloatText F] (mesh : Mesh F) (mbb : Box F) (L : Layout F)
    (nx ny nz : Int) (outPrefix : Bytes) (env : Key → FileEnv) (fs : FS)
    (out : FS × Option (List Bytes)) : Prop :=
  ∃ vox : Key → BinVOX F,
    (∀ t, VoxelizeRun (tileModel L mbb t) mesh (.ok (vox t))) ∧
    out = diceLoop outPrefix vox env (tileIndices nx ny nz) fs []

end StlDice
