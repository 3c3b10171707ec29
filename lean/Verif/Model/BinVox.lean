import Verif.Model.Basic

/-! # The BinVOX structure: binvox/binvox.go -/

namespace StlDice

/-- `binvox.Color`, binvox/binvox.go:45-47. -/
structure Color (F : Type) where
  R : F
  G : F
  B : F
  A : F
deriving DecidableEq, Repr

/-- `WhiteVoxelMap`, binvox/binvox.go:55. -/
abbrev WhiteVoxelMap := GoMap Key Unit
/-- `ColorVoxelMap`, binvox/binvox.go:58. -/
abbrev ColorVoxelMap (F : Type) := GoMap Key (Color F)

/-- `BinVOX`, binvox/binvox.go:25-37.  `none` is the nil map. -/
structure BinVOX (F : Type) where
  NX : Int
  NY : Int
  NZ : Int
  TX : F
  TY : F
  TZ : F
  Scale : F
  WhiteVoxels : Option WhiteVoxelMap
  ColorVoxels : Option (ColorVoxelMap F)

/-- Reading a possibly nil map (a nil map reads as empty). -/
def mapOf {K V : Type} (m : Option (GoMap K V)) : GoMap K V := m.getD []

namespace BinVOX
variable {F : Type}

/-- `b.WhiteVoxels` as read by lookups, `len` and `range`. -/
def white (b : BinVOX F) : WhiteVoxelMap := mapOf b.WhiteVoxels
/-- `b.ColorVoxels` as read by lookups, `len` and `range`. -/
def color (b : BinVOX F) : ColorVoxelMap F := mapOf b.ColorVoxels

/-- `New`, binvox/binvox.go:61-82. -/
def New (nx ny nz : Int) (offx offy offz scale : F) (fullColor : Bool) : BinVOX F where
  NX := nx
  NY := ny
  NZ := nz
  TX := offx
  TY := offy
  TZ := offz
  Scale := scale
  WhiteVoxels := if fullColor then none else some []
  ColorVoxels := if fullColor then some [] else none

/-- `White`, binvox/binvox.go:51. -/
def White [GoFloat F] : Color F :=
  ⟨GoFloat.ofInt 1, GoFloat.ofInt 1, GoFloat.ofInt 1, GoFloat.ofInt 1⟩

/-- `Get`, binvox/binvox.go:99-108; `none` is `ok == false`. -/
def Get [GoFloat F] (b : BinVOX F) (x y z : Int) : Option (Color F) :=
  let key : Key := ⟨x, y, z⟩
  if (b.white.get key).isSome then some White
  else match b.color.get key with
    | some c => some c
    | none => none

/-- `Add`, binvox/binvox.go:111-114 (assignment to an entry of a nil map panics). -/
def Add (b : BinVOX F) (x y z : Int) : Res (BinVOX F) :=
  match b.WhiteVoxels with
  | none => .panic
  | some m => .ok { b with WhiteVoxels := some (m.set ⟨x, y, z⟩ ()) }

/-- `AddColor`, binvox/binvox.go:117-120. -/
def AddColor (b : BinVOX F) (x y z : Int) (c : Color F) : Res (BinVOX F) :=
  match b.ColorVoxels with
  | none => .panic
  | some m => .ok { b with ColorVoxels := some (m.set ⟨x, y, z⟩ c) }

/-- `Dim`, binvox/binvox.go:123-132 (and vshell/vshell.go:81-90, same text). -/
def dimOf (nx ny nz : Int) : Int :=
  let dim := nx
  let dim := if ny > dim then ny else dim
  let dim := if nz > dim then nz else dim
  dim

/-- `Dim`, binvox/binvox.go:123-132. -/
def Dim (b : BinVOX F) : Int := dimOf b.NX b.NY b.NZ

/-- `VoxelsPerMM`, binvox/binvox.go:135-141 (and vshell/vshell.go:93-99, same text). -/
def vpmmOf [GoFloat F] (nx ny nz : Int) (scale : F) : F :=
  if GoFloat.le scale (GoFloat.ofInt 0) then GoFloat.ofInt 1
  else GoFloat.div (GoFloat.ofInt (dimOf nx ny nz)) scale

/-- `VoxelsPerMM`, binvox/binvox.go:135-141. -/
def VoxelsPerMM [GoFloat F] (b : BinVOX F) : F := vpmmOf b.NX b.NY b.NZ b.Scale

/-- A point or corner (`gl.Vector`). -/
structure Vec (F : Type) where
  X : F
  Y : F
  Z : F
deriving DecidableEq, Repr

/-- `gl.Box`. -/
structure Box (F : Type) where
  Min : Vec F
  Max : Vec F
deriving DecidableEq, Repr

/-- `MBB`, binvox/binvox.go:144-149 (and vshell/vshell.go:102-107, same text). -/
def MBB [GoFloat F] (b : BinVOX F) : Box F :=
  let s : F := GoFloat.div (GoFloat.ofInt 1) b.VoxelsPerMM
  { Min := ⟨b.TX, b.TY, b.TZ⟩
    Max := ⟨GoFloat.add b.TX (GoFloat.mul s (GoFloat.ofInt b.NX)),
            GoFloat.add b.TY (GoFloat.mul s (GoFloat.ofInt b.NY)),
            GoFloat.add b.TZ (GoFloat.mul s (GoFloat.ofInt b.NZ))⟩ }

end BinVOX
end StlDice
