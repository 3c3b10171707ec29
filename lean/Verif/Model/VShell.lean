import Verif.Model.BinVoxIO

/-! # Voxel shells: vshell/vshell.go, vshell/merge.go -/

namespace StlDice
variable {F : Type}

/-- `NeighborBitMap`, vshell/vshell.go:47. -/
abbrev NeighborBitMap := BitVec 32

/-- `VShVoxel`, vshell/vshell.go:40-43. -/
structure VShVoxel where
  X : Int
  Y : Int
  Z : Int
  N : NeighborBitMap
deriving DecidableEq, Repr

/-- `key{v.X, v.Y, v.Z}`. -/
def VShVoxel.key (v : VShVoxel) : Key := ⟨v.X, v.Y, v.Z⟩

/-- `VShell`, vshell/vshell.go:32-37. -/
structure VShell (F : Type) where
  NX : Int
  NY : Int
  NZ : Int
  TX : F
  TY : F
  TZ : F
  Scale : F
  Voxels : List VShVoxel
deriving DecidableEq

/-- `Dim`, vshell/vshell.go:81-90. -/
def VShell.Dim (v : VShell F) : Int := BinVOX.dimOf v.NX v.NY v.NZ

/-- `VoxelsPerMM`, vshell/vshell.go:93-99. -/
def VShell.VoxelsPerMM [GoFloat F] (v : VShell F) : F := BinVOX.vpmmOf v.NX v.NY v.NZ v.Scale

/-- `X_1Y_1Z_1`, vshell/vshell.go:110. -/
def X_1Y_1Z_1 : NeighborBitMap := 1#32
/-- `x0y0z0`, vshell/vshell.go:123 (14th constant of the iota block). -/
def x0y0z0 : NeighborBitMap := 1#32 <<< 13
/-- `allNeighbors`, vshell/vshell.go:282-307: the 26 constants but `x0y0z0`. -/
def allNeighbors : NeighborBitMap := 0x7FFDFFF#32

/-- The offsets visited by the three nested loops of `findNeighbors`, vshell/merge.go:186-188. -/
def offsets27 : List (Int × Int × Int) :=
  [-1, 0, 1].flatMap fun x => [-1, 0, 1].flatMap fun y => [-1, 0, 1].map fun z => (x, y, z)

/-- Locals of `findNeighbors`. -/
structure FNState where
  mask : NeighborBitMap
  result : NeighborBitMap
  toCheck : List Key

/-- Loop body of `findNeighbors`, vshell/merge.go:189-198. -/
def fnStep {V : Type} (m : GoMap Key Unit) (old : GoMap Key V) (k : Key) (s : FNState)
    (o : Int × Int × Int) : FNState :=
  let s' : FNState :=
    if s.mask ≠ x0y0z0 then
      let tk : Key := ⟨k.X + o.1, k.Y + o.2.1, k.Z + o.2.2⟩
      if m.has tk then { s with result := s.result ||| s.mask }
      else if old.has tk then { s with result := s.result ||| s.mask, toCheck := s.toCheck ++ [tk] }
      else s
    else s
  { s' with mask := s'.mask <<< 1 }

/-- `findNeighbors`, vshell/merge.go:184-203. -/
def findNeighbors {V : Type} (m : GoMap Key Unit) (old : GoMap Key V) (k : Key) :
    NeighborBitMap × List Key :=
  let s := offsets27.foldl (fnStep m old k) ⟨X_1Y_1Z_1, 0, []⟩
  (s.result, s.toCheck)

/-- `diffKeys`, vshell/merge.go:207-243. -/
def diffKeys (o n : Key) : NeighborBitMap :=
  let dx := n.X - o.X
  let dy := n.Y - o.Y
  let dz := n.Z - o.Z
  let sh (d : Int) (unit : Nat) (r : NeighborBitMap) : Option NeighborBitMap :=
    if d = -1 then some r else if d = 0 then some (r <<< unit)
    else if d = 1 then some (r <<< (2 * unit)) else none
  match sh dx 9 X_1Y_1Z_1 with
  | none => 0
  | some r =>
    match sh dy 3 r with
    | none => 0
    | some r =>
      match sh dz 1 r with
      | none => 0
      | some r => r &&& allNeighbors

/-- `if n >= vs.NX { vs.NX = n + 1 }`, vshell/merge.go:59-67, 162-170. -/
def growDim (n v : Int) : Int := if v ≥ n then v + 1 else n

/-- Growing all three dimensions for one voxel. -/
def VShell.grow (vs : VShell F) (k : Key) : VShell F :=
  { vs with NX := growDim vs.NX k.X, NY := growDim vs.NY k.Y, NZ := growDim vs.NZ k.Z }

/-- Adjusting the scale, vshell/merge.go:76-81 and 172-177. -/
def VShell.adjustScale [GoFloat F] (vs : VShell F) (beforeVPMM : F) : VShell F :=
  let afterVPMM := vs.VoxelsPerMM
  if !GoFloat.eq beforeVPMM afterVPMM then
    { vs with Scale := GoFloat.mul vs.Scale (GoFloat.div afterVPMM beforeVPMM) }
  else vs

/-- `int((bv.TX - vs.TX) * vpmm)`, vshell/merge.go:135-137. -/
def offsetOf [GoFloat F] (btx vtx vpmm : F) : Int :=
  GoFloat.toInt (GoFloat.mul (GoFloat.sub btx vtx) vpmm)

/-- `if bv.TX < vs.TX { vs.TX = bv.TX }`, vshell/merge.go:138-148. -/
def minT [GoFloat F] (btx vtx : F) : F := if GoFloat.lt btx vtx then btx else vtx

/-- Moving one old voxel, vshell/merge.go:158-161. -/
def VShVoxel.moveBack (v : VShVoxel) (dx dy dz : Int) : VShVoxel :=
  { v with X := v.X - dx, Y := v.Y - dy, Z := v.Z - dz }

/-- `update`, vshell/merge.go:129-182; `none` is the error return (nothing modified before it). -/
def VShell.update [GoFloat F] (vs : VShell F) (bv : BinVOX F) :
    Option (VShell F × Int × Int × Int) :=
  let vpmm := vs.VoxelsPerMM
  if GoFloat.toInt vpmm ≠ GoFloat.toInt bv.VoxelsPerMM then none
  else
    let dx := offsetOf bv.TX vs.TX vpmm
    let dy := offsetOf bv.TY vs.TY vpmm
    let dz := offsetOf bv.TZ vs.TZ vpmm
    let vs := { vs with TX := minT bv.TX vs.TX, TY := minT bv.TY vs.TY, TZ := minT bv.TZ vs.TZ }
    if dx ≥ 0 ∧ dy ≥ 0 ∧ dz ≥ 0 then some (vs, dx, dy, dz)
    else
      let beforeVPMM := vs.VoxelsPerMM
      let moved := vs.Voxels.map (fun v => v.moveBack dx dy dz)
      let vs := moved.foldl (fun w v => w.grow v.key) { vs with Voxels := moved }
      some (vs.adjustScale beforeVPMM, 0, 0, 0)

/-- Everything the Go runtime chooses in one call of `Add`: the iteration orders of the three maps
    and the capacity of the slice `vs.Voxels` when the main loop starts. -/
structure AddSched where
  ordWhite : List Key
  ordColor : List Key
  ordLookup : List Key
  cap : Nat

/-- State of the main loop of `Add`, vshell/merge.go:91-111.
    `arr0` is the backing array the pointers in `old` point into, as it was when the loop started;
    `cur` is the current content of `vs.Voxels`.  Both are the same memory until `append` exceeds
    the capacity and copies (`cur.length ≤ cap`: not yet copied). -/
structure AddState where
  arr0 : List VShVoxel
  cur : List VShVoxel
  toRemove : GoMap Key Unit

/-- `old[ck].N = old[ck].N | dk` through the pointer. -/
def orN (l : List VShVoxel) (i : Nat) (dk : NeighborBitMap) : List VShVoxel :=
  l.modify i (fun v => { v with N := v.N ||| dk })

/-- vshell/merge.go:97-102 for one `ck`. -/
def checkStep (cap : Nat) (old : GoMap Key Nat) (k : Key) (s : AddState) (ck : Key) : AddState :=
  match old.get ck with
  | none => s
  | some i =>
    let dk := diffKeys ck k
    let arr0 := orN s.arr0 i dk
    let cur := if s.cur.length ≤ cap then orN s.cur i dk else s.cur
    let full : Bool := match arr0[i]? with
      | some v => decide (v.N = allNeighbors)
      | none => false
    { arr0 := arr0, cur := cur, toRemove := if full then s.toRemove.set ck () else s.toRemove }

/-- Loop body vshell/merge.go:93-111 for one new voxel `k`. -/
def addStep (cap : Nat) (lookup : GoMap Key Unit) (old : GoMap Key Nat) (s : AddState) (k : Key) :
    AddState :=
  let (neighbors, toCheck) := findNeighbors lookup old k
  let s := toCheck.foldl (checkStep cap old k) s
  if neighbors = allNeighbors then s
  else { s with cur := s.cur ++ [⟨k.X, k.Y, k.Z, neighbors⟩] }

/-- `old`, vshell/merge.go:85-88: key to index of the (last) voxel with that key. -/
def oldMap (vs : List VShVoxel) : GoMap Key Nat :=
  vs.zipIdx.foldl (fun m p => m.set p.1.key p.2) []

/-- Main loop and removal, vshell/merge.go:84-124. -/
def addVoxels (cap : Nat) (lookup : GoMap Key Unit) (order : List Key) (voxels : List VShVoxel) :
    List VShVoxel :=
  let s := order.foldl (addStep cap lookup (oldMap voxels)) ⟨voxels, voxels, []⟩
  if s.toRemove.length > 0 then s.cur.filter (fun v => !s.toRemove.has v.key) else s.cur

/-- The part of `Add` after `update`, vshell/merge.go:49-124, with the offset `d`. -/
def VShell.addShifted [GoFloat F] (sch : AddSched) (vs : VShell F) (dx dy dz : Int) : VShell F :=
  let beforeVPMM := vs.VoxelsPerMM
  let ks := (sch.ordWhite ++ sch.ordColor).map (fun k => k.shift dx dy dz)
  let lookup : GoMap Key Unit := ks.foldl (fun m k => m.set k ()) []
  let vs := ks.foldl (fun w k => w.grow k) vs
  let vs := vs.adjustScale beforeVPMM
  { vs with Voxels := addVoxels sch.cap lookup sch.ordLookup vs.Voxels }

/-- `Add` on non-nil arguments, vshell/merge.go:43-125; `none` is the error return. -/
def VShell.Add [GoFloat F] (sch : AddSched) (vs : VShell F) (bv : BinVOX F) : Option (VShell F) :=
  if vs.Voxels.length > 0 then
    match vs.update bv with
    | none => none
    | some (vs, dx, dy, dz) => some (vs.addShifted sch dx dy dz)
  else some (vs.addShifted sch 0 0 0)

/-- `Add` on possibly nil pointers, vshell/merge.go:39-42: the shell afterwards and `err == nil`. -/
def VShell.AddPtr [GoFloat F] (sch : AddSched) (vs : Option (VShell F)) (bv : Option (BinVOX F)) :
    Option (VShell F) × Bool :=
  match vs, bv with
  | some vs, some bv =>
    match vs.Add sch bv with
    | none => (some vs, false)
    | some vs' => (some vs', true)
  | vs, _ => (vs, false)

/-- `New`, vshell/vshell.go:55-67. -/
def VShell.New [GoFloat F] (sch : AddSched) (bv : BinVOX F) : Option (VShell F) :=
  let vs : VShell F := ⟨bv.NX, bv.NY, bv.NZ, bv.TX, bv.TY, bv.TZ, bv.Scale, []⟩
  if bv.white.length > 0 then vs.Add sch bv else some vs

/-- Loop body of `Merge`, vshell/merge.go:14-30, after reading the file: `none` = error returned,
    `some none` = nil shell. -/
def VShell.mergeStep [GoFloat F] (acc : Option (Option (VShell F))) (f : AddSched × Option (BinVOX F)) :
    Option (Option (VShell F)) :=
  match acc, f.2 with
  | none, _ => none
  | some _, none => none
  | some none, some bv => (VShell.New f.1 bv).map some
  | some (some vs), some bv => (vs.Add f.1 bv).map some

/-- `Merge`, vshell/merge.go:11-33: each file is what `binvox.Read` returns (`none` = error) with the
    runtime's choices for that file; result: `none` = error, `some none` = nil shell. -/
def VShell.Merge [GoFloat F] (files : List (AddSched × Option (BinVOX F))) :
    Option (Option (VShell F)) :=
  files.foldl VShell.mergeStep (some none)

/-- The runtime's choices are possible for this call: the orders enumerate the maps, each key once. -/
structure AddSched.Valid (sch : AddSched) (bv : BinVOX F) (dx dy dz : Int) : Prop where
  white : sch.ordWhite.Perm bv.white.keys
  color : sch.ordColor.Perm bv.color.keys
  nodup : sch.ordLookup.Nodup
  lookup : ∀ k, k ∈ sch.ordLookup ↔
    ∃ j, (bv.white.has j = true ∨ bv.color.has j = true) ∧ k = j.shift dx dy dz

end StlDice
