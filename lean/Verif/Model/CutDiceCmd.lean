import Verif.Model.Flag
import Verif.Model.Commands
import Verif.Model.VoxcutDice

/-! # voxcut and voxcut-dice from their command lines: cmd/voxcut/voxcut.go, cmd/voxcut-dice/voxcut-dice.go -/

namespace StlDice
namespace Cmd
open GoFloat BinVOX

/-- The flags voxcut declares, cmd/voxcut/voxcut.go:29-40. -/
def voxcutKind : Bytes → Option Flag.Kind :=
  Flag.table [("obinvox", .str), ("ostl", .str), ("ovox", .str), ("sx", .int), ("sy", .int), ("sz", .int),
    ("cx", .int), ("cy", .int), ("cz", .int), ("smooth", .float), ("manifold", .bool)]

/-- What voxcut understands of its command line, cmd/voxcut/voxcut.go:29-51 (`-smooth` is left out, as in
    `CutFlags`); `none`: `flag.Parse` ends the command. -/
def voxcutFlags (float : Bytes → Bool) (args : List Bytes) : Option CutFlags :=
  match Flag.parse voxcutKind float args with
  | .exit _ => none
  | .ok sets rest => some {
      obinvox := Flag.getStr sets (ascii "obinvox")
      ostl := Flag.getStr sets (ascii "ostl")
      ovox := Flag.getStr sets (ascii "ovox")
      region := ⟨Flag.getInt sets (ascii "sx") 0, Flag.getInt sets (ascii "sy") 0, Flag.getInt sets (ascii "sz") 0,
        Flag.getInt sets (ascii "cx") 0, Flag.getInt sets (ascii "cy") 0, Flag.getInt sets (ascii "cz") 0⟩
      manifold := Flag.getBool sets (ascii "manifold")
      files := rest }

/-- The flags voxcut-dice declares, cmd/voxcut-dice/voxcut-dice.go:16-22. -/
def cutDiceKind : Bytes → Option Flag.Kind :=
  Flag.table [("n", .bool), ("size", .int), ("obinvox", .str), ("ostl", .str), ("ovox", .str)]

/-- What voxcut-dice understands of its command line, cmd/voxcut-dice/voxcut-dice.go:16-30: `-n` and the
    other flags. -/
def cutDiceFlags (args : List Bytes) : Option (Bool × CutDiceFlags) :=
  match Flag.parse cutDiceKind (fun _ => false) args with
  | .exit _ => none
  | .ok sets rest => some (Flag.getBool sets (ascii "n"), {
      size := Flag.getInt sets (ascii "size") 256
      binvoxPrefix := Flag.getStr sets (ascii "obinvox")
      stlPrefix := Flag.getStr sets (ascii "ostl")
      voxPrefix := Flag.getStr sets (ascii "ovox")
      files := rest })

section
variable {F : Type} [GoFloat F] [FloatText F]

/-- The command voxcut with these arguments, cmd/voxcut/voxcut.go:43-125. -/
inductive VoxcutProc (float : Bytes → Bool) (lib : GL F) (d : Disk) (args : List Bytes) : Disk → Exit → Prop
  | usage {ok} (h : Flag.parse voxcutKind float args = .exit ok) :
      VoxcutProc float lib d args d (if ok then .done else .fatal)
  | run {fl d' e} (h : voxcutFlags float args = some fl) (hr : VoxcutRun (F := F) lib d fl d' e) :
      VoxcutProc float lib d args d' e

/-- The three nested loops, cmd/voxcut-dice/voxcut-dice.go:53-84, from the point where the variables are
    `zi`, `yi`, `xi`; `step` runs the command of one tile, which ends the loops unless it ends well.
    The additions are those of 64-bit integers. -/
inductive DiceLoop (step : Disk → Key → Disk → Exit → Prop) (nx ny nz size : Int) :
    Int → Int → Int → Disk → Disk → Exit → Prop
  | endZ {zi yi xi d} (hz : ¬ zi < nz) : DiceLoop step nx ny nz size zi yi xi d d .done
  | endY {zi yi xi d d' e} (hz : zi < nz) (hy : ¬ yi < ny) (h : DiceLoop step nx ny nz size (wrap64 (zi + size)) 0 0 d d' e) :
      DiceLoop step nx ny nz size zi yi xi d d' e
  | endX {zi yi xi d d' e} (hz : zi < nz) (hy : yi < ny) (hx : ¬ xi < nx)
      (h : DiceLoop step nx ny nz size zi (wrap64 (yi + size)) 0 d d' e) : DiceLoop step nx ny nz size zi yi xi d d' e
  | fails {zi yi xi d d' e} (hz : zi < nz) (hy : yi < ny) (hx : xi < nx) (hs : step d ⟨xi, yi, zi⟩ d' e)
      (he : e ≠ .done) : DiceLoop step nx ny nz size zi yi xi d d' .fatal
  | tile {zi yi xi d d1 d' e} (hz : zi < nz) (hy : yi < ny) (hx : xi < nx) (hs : step d ⟨xi, yi, zi⟩ d1 .done)
      (h : DiceLoop step nx ny nz size zi yi (wrap64 (xi + size)) d1 d' e) : DiceLoop step nx ny nz size zi yi xi d d' e

/-- `main` of voxcut-dice before the loops, cmd/voxcut-dice/voxcut-dice.go:32-46: the model whose header
    gives the dimensions, or a fatal exit. -/
def cutDiceBase (d : Disk) (fl : CutDiceFlags) : Option (BinVOX F) :=
  match fl.files with
  | [] => none
  | f :: _ =>
    if fl.binvoxPrefix = [] ∧ fl.stlPrefix = [] ∧ fl.voxPrefix = [] then none
    else match BinVOX.Read (F := F) (input d f) ⟨0, 0, 0, 1, 1, 1⟩ with
      | none => none
      | some b => if fl.size > b.NX ∧ fl.size > b.NY ∧ fl.size > b.NZ then none else some b

/-- One tile: the command is run, cmd/voxcut-dice/voxcut-dice.go:56-82. -/
def runTile (float : Bytes → Bool) (lib : GL F) (fl : CutDiceFlags) (d : Disk) (t : Key) (d' : Disk) (e : Exit) : Prop :=
  VoxcutProc (F := F) float lib d (cutArgs fl t).tail d' e

/-- The line of one tile in a dry run, cmd/voxcut-dice/voxcut-dice.go:73. -/
def dryLine (fl : CutDiceFlags) (t : Key) : Bytes := joinSp (cutArgs fl t) ++ ascii "\n"

/-- `main` of voxcut-dice, cmd/voxcut-dice/voxcut-dice.go:24-86: standard output, files and exit.  In a dry
    run the loops print (`ts` are the tiles they pass). -/
inductive CutDiceProc (float : Bytes → Bool) (lib : GL F) (d : Disk) (args : List Bytes) : Bytes → Disk → Exit → Prop
  | usage {ok} (h : Flag.parse cutDiceKind (fun _ => false) args = .exit ok) :
      CutDiceProc float lib d args [] d (if ok then .done else .fatal)
  | refused {dry fl} (h : cutDiceFlags args = some (dry, fl)) (hb : cutDiceBase (F := F) d fl = none) :
      CutDiceProc float lib d args [] d .fatal
  | dry {fl b fuel ts} (h : cutDiceFlags args = some (true, fl)) (hb : cutDiceBase (F := F) d fl = some b)
      (ht : diceStarts fuel b.NX b.NY b.NZ fl.size = some ts) :
      CutDiceProc float lib d args (ascii "#!/bin/bash -x\n" ++ ts.flatMap (dryLine fl)) d .done
  | run {fl b d' e} (h : cutDiceFlags args = some (false, fl)) (hb : cutDiceBase (F := F) d fl = some b)
      (hl : DiceLoop (runTile (F := F) float lib fl) b.NX b.NY b.NZ fl.size 0 0 0 d d' e) :
      CutDiceProc float lib d args [] d' e

end
end Cmd
end StlDice
