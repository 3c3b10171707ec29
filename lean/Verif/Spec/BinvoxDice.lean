import Verif.Model.BinvoxDiceCmd
import Verif.Spec.DiceScript

/-! # Specification of the script of binvox-dice -/

namespace StlDice
namespace Spec
open BinVOX Cmd

/-- What the files of box `n` have behind their names: nothing for the first, then `_1`, `_2`, … -/
def nth (n : Nat) : Bytes := if n = 0 then [] else ascii "_" ++ fmtInt n

/-- The numbers of divisions of the three axes: the factor, or 1 for an axis not to be subdivided. -/
def axisBoxes (factor : Int) (sub : Bool) : Nat := if sub then factor.toNat else 1

/-- A bound of an interval of an axis, computed as `lo + (hi - lo) * (i / f)`. -/
def axisCut {F : Type} [GoFloat F] (lo hi : F) (f i : Nat) : F :=
  GoFloat.add lo (GoFloat.mul (GoFloat.sub hi lo) (GoFloat.div (GoFloat.ofInt i) (GoFloat.ofInt f)))

/-- The six numbers of box `n` of `fx × fy × fz` boxes: x runs fastest, then y, then z. -/
def boxNumbers {F : Type} [GoFloat F] [FloatText F] (mbb : Box F) (fx fy fz n : Nat) : List Bytes :=
  [FloatText.fmtG (axisCut mbb.Min.X mbb.Max.X fx (n % fx)), FloatText.fmtG (axisCut mbb.Min.Y mbb.Max.Y fy (n / fx % fy)),
   FloatText.fmtG (axisCut mbb.Min.Z mbb.Max.Z fz (n / (fx * fy))),
   FloatText.fmtG (axisCut mbb.Min.X mbb.Max.X fx (n % fx + 1)), FloatText.fmtG (axisCut mbb.Min.Y mbb.Max.Y fy (n / fx % fy + 1)),
   FloatText.fmtG (axisCut mbb.Min.Z mbb.Max.Z fz (n / (fx * fy) + 1))]

/-- The lines for box `n`: an empty one, one for binvox per file, and one for voxcut. -/
def boxLines (numbers : List Bytes) (args : List Bytes) (n : Nat) : List (List Bytes) :=
  [[]] :: (args.map fun a => [ascii "binvox", ascii "-pb", ascii "-d", ascii "1024", ascii "-bb"] ++ numbers ++ [a]) ++
  [[ascii "voxcut", ascii "-ostl", ascii "out" ++ nth n ++ ascii ".stl"] ++
    args.map fun a => trimStl a ++ nth n ++ ascii ".binvox"]

/-- The text `true` or `false`. -/
def boolText (b : Bool) : Bytes := if b then ascii "true" else ascii "false"

/-- The comment at the start. -/
def diceHeader (quote : Bytes → Bytes) (fl : BinvoxDiceFlags) : List (List Bytes) :=
  [[ascii "#!/bin/bash", ascii "-x"],
   [ascii "#", ascii "Generated", ascii "with", ascii "command", ascii "line:"],
   [ascii "#", ascii "binvox-dice", ascii "\\"],
   [ascii "#\t-factor", fmtInt fl.factor, ascii "\\"],
   [ascii "#\t-mbb", quote fl.mbb, ascii "\\"],
   [ascii "#\t-subx", boolText fl.subX, ascii "\\"],
   [ascii "#\t-suby", boolText fl.subY, ascii "\\"],
   [ascii "#\t-subz", boolText fl.subZ, ascii "\\"],
   (ascii "#\t" ++ fl.args.headD []) :: fl.args.tail]

/-- The whole script. -/
def diceLines {F : Type} [GoFloat F] [FloatText F] (quote : Bytes → Bytes) (fl : BinvoxDiceFlags) (mbb : Box F) : List (List Bytes) :=
  diceHeader quote fl ++ (List.range (axisBoxes fl.factor fl.subX * axisBoxes fl.factor fl.subY * axisBoxes fl.factor fl.subZ)).flatMap
    fun n => boxLines (boxNumbers mbb (axisBoxes fl.factor fl.subX) (axisBoxes fl.factor fl.subY) (axisBoxes fl.factor fl.subZ) n) fl.args n

end Spec
end StlDice
