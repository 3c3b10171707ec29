import Verif.Model.VoxcutDice
import Verif.Model.MbbText
import Verif.Model.Script
import Verif.Model.Flag

/-!
# The command binvox-dice and its script: cmd/binvox-dice/binvox-dice.go:29-128

The script runs the external program binvox.  Assumed of `binvox -pb -d 1024 -bb ... x.stl` (it is not part of the
repository): it reads `x.stl`, and if it produces anything writes it to the first of the names `x.binvox`,
`x_1.binvox`, `x_2.binvox`, … that no file has.
-/

namespace StlDice
namespace Cmd
open GoFloat BinVOX

/-- `fmt.Printf(format, c)` for formats in which `%` occurs only as `%[1]v` and `%%`; any other use of `%` is not
    modelled (`none`). -/
def printf1 (c : Bytes) : Bytes → Option Bytes
  | [] => some []
  | 37 :: 37 :: r => (printf1 c r).map (37 :: ·)
  | 37 :: 91 :: 49 :: 93 :: 118 :: r => (printf1 c r).map (c ++ ·)
  | x :: s => if x = 37 then none else (printf1 c s).map (x :: ·)

/-- The flags of binvox-dice, cmd/binvox-dice/binvox-dice.go:30-34, and its file arguments. -/
structure BinvoxDiceFlags where
  factor : Int
  mbb : Bytes
  subX : Bool
  subY : Bool
  subZ : Bool
  args : List Bytes

/-- The flags binvox-dice declares, cmd/binvox-dice/binvox-dice.go:30-34. -/
def binvoxDiceKind : Bytes → Option Flag.Kind :=
  Flag.table [("factor", .int), ("mbb", .str), ("subx", .bool), ("suby", .bool), ("subz", .bool)]

/-- A flag declared with `flag.Bool` and a default. -/
def getBoolD (sets : List (Bytes × Bytes)) (name : Bytes) (dflt : Bool) : Bool :=
  ((Flag.get sets name).bind Flag.parseBool).getD dflt

/-- What binvox-dice understands of its command line, cmd/binvox-dice/binvox-dice.go:30-45. -/
def binvoxDiceFlags (args : List Bytes) : Option BinvoxDiceFlags :=
  match Flag.parse binvoxDiceKind (fun _ => false) args with
  | .exit _ => none
  | .ok sets rest => some {
      factor := Flag.getInt sets (ascii "factor") 8
      mbb := Flag.getStr sets (ascii "mbb")
      subX := getBoolD sets (ascii "subx") true
      subY := getBoolD sets (ascii "suby") true
      subZ := getBoolD sets (ascii "subz") false
      args := rest }

/-- `%v` of a bool. -/
def fmtBool (b : Bool) : Bytes := if b then ascii "true" else ascii "false"

/-- The first lines, cmd/binvox-dice/binvox-dice.go:80-82; `quote` is `%q`. -/
def binvoxHeader (quote : Bytes → Bytes) (fl : BinvoxDiceFlags) : Bytes :=
  ascii "#!/bin/bash -x\n" ++ ascii "# Generated with command line:\n" ++
  ascii "# binvox-dice \\\n#\t-factor " ++ fmtInt fl.factor ++ ascii " \\\n#\t-mbb " ++ quote fl.mbb ++
  ascii " \\\n#\t-subx " ++ fmtBool fl.subX ++ ascii " \\\n#\t-suby " ++ fmtBool fl.subY ++
  ascii " \\\n#\t-subz " ++ fmtBool fl.subZ ++ ascii " \\\n#\t" ++ joinSp fl.args ++ ascii "\n"

/-- `sFmt`, cmd/binvox-dice/binvox-dice.go:97-101. -/
def voxcutFmt (args : List Bytes) : Bytes :=
  args.foldl (fun s arg => s ++ (ascii " " ++ trimStl arg ++ ascii "%[1]v.binvox")) (ascii "voxcut -ostl out%[1]v.stl")

section
variable {F : Type} [GoFloat F] [FloatText F]

/-- One binvox line, cmd/binvox-dice/binvox-dice.go:115. -/
def binvoxLine (b : Box F) (arg : Bytes) : Bytes :=
  ascii "binvox -pb -d " ++ fmtInt 1024 ++ ascii " -bb " ++ FloatText.fmtG b.Min.X ++ ascii " " ++
    FloatText.fmtG b.Min.Y ++ ascii " " ++ FloatText.fmtG b.Min.Z ++ ascii " " ++ FloatText.fmtG b.Max.X ++ ascii " " ++
    FloatText.fmtG b.Max.Y ++ ascii " " ++ FloatText.fmtG b.Max.Z ++ ascii " " ++ arg ++ ascii "\n"

/-- What is printed for one box, cmd/binvox-dice/binvox-dice.go:113-123. -/
def binvoxBox (args : List Bytes) (b : DiceBox F) : Option Bytes :=
  (printf1 b.suffix (voxcutFmt args ++ ascii "\n")).map fun v => ascii "\n" ++ args.flatMap (binvoxLine b.box) ++ v

/-- What is printed for all boxes. -/
def binvoxBoxes (args : List Bytes) : List (DiceBox F) → Option Bytes
  | [] => some []
  | b :: bs => match binvoxBox args b, binvoxBoxes args bs with
    | some x, some y => some (x ++ y)
    | _, _ => none

/-- The standard output, cmd/binvox-dice/binvox-dice.go:80-128, for the parsed `-mbb`. -/
def binvoxScript (quote : Bytes → Bytes) (fl : BinvoxDiceFlags) (mbb : Box F) : Option Bytes :=
  (binvoxBoxes fl.args (binvoxDice mbb (subFactor fl.factor fl.subX) (subFactor fl.factor fl.subY)
    (subFactor fl.factor fl.subZ))).map (binvoxHeader quote fl ++ ·)

/-- `main` of binvox-dice with these arguments, cmd/binvox-dice/binvox-dice.go:39-128: output and exit.  A run whose
    names contain a `%` that `printf1` does not model is left out. -/
inductive BinvoxDiceProc (F : Type) [GoFloat F] [FloatText F] (quote : Bytes → Bytes) (args : List Bytes) : Bytes → Exit → Prop
  | usage {ok} (h : Flag.parse binvoxDiceKind (fun _ => false) args = .exit ok) :
      BinvoxDiceProc F quote args [] (if ok then .done else .fatal)
  | noFile {fl} (h : binvoxDiceFlags args = some fl) (hn : fl.args.length < 1) : BinvoxDiceProc F quote args [] .fatal
  | badMbb {fl} (h : binvoxDiceFlags args = some fl) (hn : ¬ fl.args.length < 1) (hm : parseMBB (F := F) fl.mbb = none) :
      BinvoxDiceProc F quote args [] .fatal
  | done {fl mbb out} (h : binvoxDiceFlags args = some fl) (hn : ¬ fl.args.length < 1)
      (hm : parseMBB (F := F) fl.mbb = some mbb) (ho : binvoxScript quote fl mbb = some out) :
      BinvoxDiceProc F quote args out .done

/-- The `k`-th name the program binvox tries for `stem.stl`. -/
def numbered (stem : Bytes) (k : Nat) : Bytes :=
  stem ++ (if k = 0 then [] else ascii "_" ++ fmtInt k) ++ ascii ".binvox"

/-- One line of the script; `tool content numbers` is what the program binvox makes of a file for the box with
    these six numbers, if anything. -/
inductive BinvoxStep (tool : Bytes → List Bytes → Option Bytes) (lib : GL F) (d : Disk) : List Bytes → Disk → Prop
  | blank : BinvoxStep tool lib d [[]] d
  | comment {w ws} (h : w.head? = some 35) : BinvoxStep tool lib d (w :: ws) d
  | binvox {n1 n2 n3 n4 n5 n6 stem c k} (h : (d (stem ++ ascii ".stl")).bind (fun f => tool f [n1, n2, n3, n4, n5, n6]) = some c)
      (hk : d (numbered stem k) = none) (hj : ∀ j < k, d (numbered stem j) ≠ none) :
      BinvoxStep tool lib d [ascii "binvox", ascii "-pb", ascii "-d", ascii "1024", ascii "-bb", n1, n2, n3, n4, n5, n6, stem ++ ascii ".stl"]
        (put d (numbered stem k) c)
  | nothing {n1 n2 n3 n4 n5 n6 stem} (h : (d (stem ++ ascii ".stl")).bind (fun f => tool f [n1, n2, n3, n4, n5, n6]) = none) :
      BinvoxStep tool lib d [ascii "binvox", ascii "-pb", ascii "-d", ascii "1024", ascii "-bb", n1, n2, n3, n4, n5, n6, stem ++ ascii ".stl"] d
  | voxcut {o files d' e} (h : VoxcutRun (F := F) lib d (stlFlags o files) d' e) :
      BinvoxStep tool lib d (ascii "voxcut" :: ascii "-ostl" :: o :: files) d'

end
end Cmd
end StlDice
