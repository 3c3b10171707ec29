import Verif.Model.VShellIO

/-! # voxcut: cmd/voxcut/voxcut.go -/

namespace StlDice
variable {F : Type}

/-- `gl.Clamp(x, 0, 1)` (fauxgl). -/
def clamp01 [GoFloat F] (x : F) : F :=
  if GoFloat.lt x (GoFloat.ofInt 0) then GoFloat.ofInt 0
  else if GoFloat.lt (GoFloat.ofInt 1) x then GoFloat.ofInt 1 else x

/-- cmd/voxcut/voxcut.go:153-160: does a base voxel of colour `vc` survive a cut voxel of colour
    `c`? -/
def survives [GoFloat F] (vc c : Color F) : Bool :=
  let r := clamp01 (GoFloat.sub vc.R (GoFloat.mul c.A c.R))
  let g := clamp01 (GoFloat.sub vc.G (GoFloat.mul c.A c.G))
  let b := clamp01 (GoFloat.sub vc.B (GoFloat.mul c.A c.B))
  let z : F := GoFloat.ofInt 0
  GoFloat.lt z vc.A && (GoFloat.lt z r || GoFloat.lt z g || GoFloat.lt z b)

/-- `keyFunc`, cmd/voxcut/voxcut.go:145-161, on the map built so far. -/
def cutKey [GoFloat F] (cut : BinVOX F) (m : WhiteVoxelMap) (v : Key) (vc : Color F) : WhiteVoxelMap :=
  match cut.Get v.X v.Y v.Z with
  | none => m.set v ()
  | some c => if survives vc c then m.set ⟨v.X, v.Y, v.Z⟩ () else m

/-- `voxcut`, cmd/voxcut/voxcut.go:128-170; `none` is the error "base must not be empty".
    The offsets dx, dy, dz (lines 140-142) are computed and logged but not used. -/
def voxcut [GoFloat F] (base cut : BinVOX F) : Option (Option WhiteVoxelMap) :=
  if cut.white.length = 0 then some base.WhiteVoxels
  else if base.white.length = 0 then none
  else
    let m : WhiteVoxelMap := base.white.foldl (fun m e => cutKey cut m e.1 BinVOX.White) []
    let m := base.color.foldl (fun m e => cutKey cut m e.1 e.2) m
    some (some m)

/-- The loop over the cutting models in `main`, cmd/voxcut/voxcut.go:63-80: `none` in the list is a file
    that could not be read (skipped); the result `none` is a `log.Fatal`. -/
def voxcutLoop [GoFloat F] : BinVOX F → List (Option (BinVOX F)) → Option (BinVOX F)
  | base, [] => some base
  | base, none :: cuts => voxcutLoop base cuts
  | base, some cut :: cuts =>
    match voxcut base cut with
    | none => none
    | some m =>
      let base := { base with WhiteVoxels := m }
      if base.white.length = 0 then none else voxcutLoop base cuts

/-- `main` of voxcut up to the binvox output, cmd/voxcut/voxcut.go:58-88: read the base and the cuts
    with the same region, cut, write the region to the writer `w`.  `none` is a fatal exit. -/
def voxcutMain [GoFloat F] [FloatText F] (baseFile : Input) (cutFiles : List Input) (r : Region)
    (w : Sink) : Option Sink :=
  match BinVOX.read (F := F) baseFile r with
  | none => none
  | some base =>
    match voxcutLoop base (cutFiles.map fun f => BinVOX.read (F := F) f r) with
    | none => none
    | some b =>
      match b.write w r with
      | (_, none) => none
      | (w, some _) => some w

/-- An int32 in little endian (`binary.Write` of `int32(i)`, wrapping). -/
def leInt (i : Int) : Bytes := le32 (BitVec.ofInt 32 i)

/-- `gl.VOXChunk{ID, ContentBytes, ChildrenBytes}` as written by `binary.Write`. -/
def voxChunk (id : Bytes) (content children : Int) : Bytes := id ++ leInt content ++ leInt children

/-- cmd/voxcut/voxcut.go:188-199: the running maximum, starting at 0. -/
def voxMax (f : Key → Int) (m : WhiteVoxelMap) : Int :=
  m.foldl (fun a e => if f e.1 > a then f e.1 else a) 0

/-- The `Write` calls of `writeVOX`, cmd/voxcut/voxcut.go:173-240, for the map in the order the
    `range` visits it. -/
def voxCalls (m : WhiteVoxelMap) : List Bytes :=
  [ascii "VOX " ++ leInt 150,
   voxChunk (ascii "MAIN") 0 (12 + (m.length : Int) * 4 + 4),
   voxChunk (ascii "SIZE") 12 0,
   leInt (voxMax Key.X m), leInt (voxMax Key.Y m), leInt (voxMax Key.Z m),
   voxChunk (ascii "XYZI") ((m.length : Int) * 4 + 4) 0,
   leInt m.length] ++
  m.flatMap fun e => [leInt e.1.X, leInt e.1.Y, leInt e.1.Z, leInt 1]

/-- `writeVOX`: the writer afterwards and whether a nil error was returned. -/
def writeVOX (w : Sink) (m : WhiteVoxelMap) : Sink × Bool := w.writeAll (voxCalls m)

end StlDice
