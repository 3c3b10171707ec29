import Verif.Model.VShell
import Verif.Model.Text

/-!
# The `String` methods: binvox/binvox.go, binvox/manifold.go, vshell/vshell.go

`fmt.Sprintf` is library code: it is modelled by replacing every `%v` of the format by the text of its argument.
-/

namespace StlDice

/-- `fmt.Sprintf(format, words...)` for a format whose only verb is `%v` (bytes 37, 118), the arguments given as their
    texts. -/
def sprintf : Bytes → List Bytes → Bytes
  | 37 :: 118 :: f, w :: ws => w ++ sprintf f ws
  | c :: f, ws => c :: sprintf f ws
  | [], _ => []

/-- `strings.Join`. -/
def joinWith (sep : Bytes) : List Bytes → Bytes
  | [] => []
  | [w] => w
  | w :: ws => w ++ sep ++ joinWith sep ws

/-- The digit of value `d < 16` in upper case. -/
def hexDigit (d : Nat) : UInt8 := if d < 10 then UInt8.ofNat (48 + d) else UInt8.ofNat (55 + d)

/-- Hexadecimal digits of a number, least significant first, with fuel. -/
def hexDigitsRev : Nat → Nat → Bytes
  | 0, _ => []
  | fuel + 1, n => if n < 16 then [hexDigit n] else hexDigit (n % 16) :: hexDigitsRev fuel (n / 16)

/-- `fmt.Sprintf("%X", n)` of an unsigned number. -/
def fmtHex (n : Nat) : Bytes := (hexDigitsRev (n + 1) n).reverse

/-- The constants of vshell/vshell.go:109-137 by name, in the order of their bits, which is the order in which `String`
    tests them, vshell/vshell.go:143-274. -/
def bitNames : List Bytes := [
  ascii "X_1Y_1Z_1", ascii "X_1Y_1Z0", ascii "X_1Y_1Z1", ascii "X_1Y0Z_1", ascii "X_1Y0Z0", ascii "X_1Y0Z1",
  ascii "X_1Y1Z_1", ascii "X_1Y1Z0", ascii "X_1Y1Z1", ascii "X0Y_1Z_1", ascii "X0Y_1Z0", ascii "X0Y_1Z1",
  ascii "X0Y0Z_1", ascii "x0y0z0", ascii "X0Y0Z1", ascii "X0Y1Z_1", ascii "X0Y1Z0", ascii "X0Y1Z1",
  ascii "X1Y_1Z_1", ascii "X1Y_1Z0", ascii "X1Y_1Z1", ascii "X1Y0Z_1", ascii "X1Y0Z0", ascii "X1Y0Z1",
  ascii "X1Y1Z_1", ascii "X1Y1Z0", ascii "X1Y1Z1"]

/-- The bits with their names: what one `if` of `NeighborBitMap.String` tests and appends. -/
def bitTable : List (Nat × Bytes) := (List.range 27).zip bitNames

/-- `result` at the end of the tests, vshell/vshell.go:143-274. -/
def namesSet (n : NeighborBitMap) : List Bytes := (bitTable.filter fun p => n.getLsbD p.1).map (·.2)

/-- `neg` at the end of the tests, vshell/vshell.go:143-274: the test of `x0y0z0` has no `else`. -/
def namesClear (n : NeighborBitMap) : List Bytes :=
  (bitTable.filter fun p => !n.getLsbD p.1 && p.1 != 13).map fun p => ascii "^" ++ p.2

/-- The part of the text after ` = `, vshell/vshell.go:275-279. -/
def nbmExpr (n : NeighborBitMap) : Bytes :=
  if (namesSet n).length ≤ (namesClear n).length then joinWith (ascii " | ") (namesSet n)
  else ascii "allNeighbors & " ++ joinWith (ascii " & ") (namesClear n)

/-- `NeighborBitMap.String`, vshell/vshell.go:140-280. -/
def nbmString (n : NeighborBitMap) : Bytes := ascii "0x" ++ fmtHex n.toNat ++ ascii " = " ++ nbmExpr n

/-- `VShVoxel.String`, vshell/vshell.go:76-78. -/
def VShVoxel.String (v : VShVoxel) : Bytes :=
  sprintf (ascii "{X:%v,Y:%v,Z:%v,N:%v}") [fmtInt v.X, fmtInt v.Y, fmtInt v.Z, nbmString v.N]

/-- The texts of the first 14 arguments of both summaries, vshell/vshell.go:72, binvox/binvox.go:88-93: the numbers of
    voxels, the translation, the bounding box (of `MBB`, the same text in both packages), the scale and the resolution. -/
def summaryWords {F : Type} [GoFloat F] [FloatText F] (b : BinVOX F) : List Bytes :=
  [fmtInt b.NX, fmtInt b.NY, fmtInt b.NZ,
   FloatText.fmtG b.TX, FloatText.fmtG b.TY, FloatText.fmtG b.TZ,
   FloatText.fmtG b.MBB.Min.X, FloatText.fmtG b.MBB.Min.Y, FloatText.fmtG b.MBB.Min.Z,
   FloatText.fmtG b.MBB.Max.X, FloatText.fmtG b.MBB.Max.Y, FloatText.fmtG b.MBB.Max.Z,
   FloatText.fmtG b.Scale, FloatText.fmtG b.VoxelsPerMM]

/-- `BinVOX.String`, binvox/binvox.go:85-96; `len` of a map is the number of its keys. -/
def BinVOX.String {F : Type} [GoFloat F] [FloatText F] (b : BinVOX F) : Bytes :=
  sprintf (ascii ("BinVOX(n=[%v,%v,%v], t=[%v,%v,%v], mbb=(%v,%v,%v)-(%v,%v,%v), scale=%v, %v vpmm, " ++
      "%v white voxels, %v color voxels)"))
    (summaryWords b ++ [fmtInt b.white.length, fmtInt b.color.length])

/-- The model of the same size, place and scale as a shell: `MBB` and `VoxelsPerMM` of a `VShell`,
    vshell/vshell.go:93-107, have the same text as those of a `BinVOX`. -/
def VShell.frame {F : Type} (v : VShell F) : BinVOX F :=
  { NX := v.NX, NY := v.NY, NZ := v.NZ, TX := v.TX, TY := v.TY, TZ := v.TZ, Scale := v.Scale, WhiteVoxels := none, ColorVoxels := none }

/-- `VShell.String`, vshell/vshell.go:70-73. -/
def VShell.String {F : Type} [GoFloat F] [FloatText F] (v : VShell F) : Bytes :=
  sprintf (ascii ("VShell(n=[%v,%v,%v], t=[%v,%v,%v], mbb=(%v,%v,%v)-(%v,%v,%v), scale=%v, %v vpmm, %v voxels)"))
    (summaryWords v.frame ++ [fmtInt v.Voxels.length])

namespace Manifold

/-- `test` and `invTest` of `neighborBitMap.String` without their leading `g`, binvox/manifold.go:598-656: the digits of
    the bits that are set (`on`) or clear. -/
def cornerDigits (n : Nat) (on : Bool) : List UInt8 :=
  ((List.range 8).filter fun i => n.testBit i == on).map fun i => UInt8.ofNat (48 + i)

/-- `result` and `invResult`, binvox/manifold.go:600-656. -/
def cornerNames (n : Nat) (on : Bool) : List Bytes :=
  ((List.range 8).filter fun i => n.testBit i == on).map fun i => ascii "g" ++ [UInt8.ofNat (48 + i)]

/-- `neighborBitMap.String`, binvox/manifold.go:597-661; the type is a byte, so `n < 256`. `%#x` of 0, the only value
    that reaches it, is `0x0`. -/
def cellString (n : Nat) : Bytes :=
  if (cornerNames n true).length = 0 then fmtInt n ++ ascii "=0x" ++ fmtHex n ++ ascii "=*empty*"
  else sprintf (ascii "%v = case %v: (inverse = %v = case %v:)")
    [ascii "g" ++ cornerDigits n true, joinWith (ascii " | ") (cornerNames n true),
     ascii "g" ++ cornerDigits n false, joinWith (ascii " | ") (cornerNames n false)]

end Manifold
end StlDice
