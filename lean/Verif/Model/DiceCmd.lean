import Mathlib.Data.List.Lex
import Mathlib.Data.List.Sort
import Verif.Model.Dice
import Verif.Model.VoxcutDice
import Verif.Model.Commands

/-! # The command stldice and the script it prints: cmd/stldice/stldice.go:37-119 -/

namespace StlDice
namespace Cmd
open GoFloat BinVOX

/-- The flags of stldice, cmd/stldice/stldice.go:26-32, and its file arguments.  `mbb`: the flag is
    empty (`none`), could not be parsed (`some none`, see `MbbText`), or is a box.  The flag `-smooth`
    is left out: it changes only normals, which voxelizing does not use. -/
structure DiceFlags (F : Type) where
  mbb : Option (Option (Box F))
  dim : Int
  nx : Int
  ny : Int
  nz : Int
  args : List Bytes

/-- `*dim%*nX != 0 || *dim%*nY != 0 || *dim%*nZ != 0`, cmd/stldice/stldice.go:48-50, for the list of
    the three divisors: `err` is a fatal exit, `panic` a division by zero. -/
def divides (dim : Int) : List Int → Res Unit
  | [] => .ok ()
  | n :: ns => if n = 0 then .panic else if dim.tmod n ≠ 0 then .err else divides dim ns

section
variable {F : Type} [GoFloat F] [FloatText F]

/-- The loop over the arguments, cmd/stldice/stldice.go:62-97.  `load` is `gl.LoadSTL` on the content of a
    file and `bbox` is `mesh.BoundingBox()` (library); `env arg t` is the outcome of the system calls that
    write tile `t` of `arg`.  State: the directory, `mbb`, and the set `prefixes`. -/
inductive DiceArgs (load : Bytes → Option (Mesh F)) (bbox : Mesh F → Box F) (env : Bytes → Key → FileEnv)
    (dim nx ny nz : Int) : List Bytes → FS → Option (Box F) → GoMap Bytes Unit → FS → Res (GoMap Bytes Unit) → Prop
  | nil {fs mbb pf} : DiceArgs load bbox env dim nx ny nz [] fs mbb pf fs (.ok pf)
  | unreadable {arg args fs mbb pf} (h : (fs.get arg).bind load = none) :
      DiceArgs load bbox env dim nx ny nz (arg :: args) fs mbb pf fs .err
  | layoutFails {arg args fs mbb pf mesh} (h : (fs.get arg).bind load = some mesh)
      (hl : layout (mbb.getD (bbox mesh)) (boxScale (mbb.getD (bbox mesh))) dim nx ny nz = .err) :
      DiceArgs load bbox env dim nx ny nz (arg :: args) fs mbb pf fs .err
  | layoutPanics {arg args fs mbb pf mesh} (h : (fs.get arg).bind load = some mesh)
      (hl : layout (mbb.getD (bbox mesh)) (boxScale (mbb.getD (bbox mesh))) dim nx ny nz = .panic) :
      DiceArgs load bbox env dim nx ny nz (arg :: args) fs mbb pf fs .panic
  | writeFails {arg args fs mbb pf mesh L fs'} (h : (fs.get arg).bind load = some mesh)
      (hl : layout (mbb.getD (bbox mesh)) (boxScale (mbb.getD (bbox mesh))) dim nx ny nz = .ok L)
      (hr : DiceRun mesh (mbb.getD (bbox mesh)) L nx ny nz (jobPrefix arg dim nx ny nz) (env arg) fs (fs', none)) :
      DiceArgs load bbox env dim nx ny nz (arg :: args) fs mbb pf fs' .err
  | next {arg args fs mbb pf mesh L fs' pfxs fs'' r} (h : (fs.get arg).bind load = some mesh)
      (hl : layout (mbb.getD (bbox mesh)) (boxScale (mbb.getD (bbox mesh))) dim nx ny nz = .ok L)
      (hr : DiceRun mesh (mbb.getD (bbox mesh)) L nx ny nz (jobPrefix arg dim nx ny nz) (env arg) fs (fs', some pfxs))
      (hn : DiceArgs load bbox env dim nx ny nz args fs' (some (mbb.getD (bbox mesh)))
        (pfxs.foldl (fun m v => m.set v ()) pf) fs'' r) :
      DiceArgs load bbox env dim nx ny nz (arg :: args) fs mbb pf fs'' r

/-- `common`, cmd/stldice/stldice.go:110. -/
def common (dim nx ny nz : Int) : Bytes :=
  fmtInt dim ++ ascii "-" ++ fmtInt nx ++ ascii "-" ++ fmtInt ny ++ ascii "-" ++ fmtInt nz

/-- `stlOutPrefix`, cmd/stldice/stldice.go:106-109. -/
def stlOutPrefix (args : List Bytes) : Bytes := if args.length = 1 then trimStl (args.headD []) else ascii "out"

/-- One voxcut line, cmd/stldice/stldice.go:112-116. -/
def voxcutLine (fl : DiceFlags F) (v : Bytes) : Bytes :=
  ascii "voxcut -ostl " ++ stlOutPrefix fl.args ++ ascii "-" ++ common fl.dim fl.nx fl.ny fl.nz ++ v ++ ascii ".stl " ++
    trimStl (fl.args.headD []) ++ ascii "-" ++ common fl.dim fl.nx fl.ny fl.nz ++ v ++ ascii ".binvox" ++
    (fl.args.tail.flatMap fun arg =>
      ascii " " ++ trimStl arg ++ ascii "-" ++ common fl.dim fl.nx fl.ny fl.nz ++ v ++ ascii ".binvox") ++ ascii "\n"

/-- The merge-stl line, cmd/stldice/stldice.go:118-120. -/
def mergeLine (fl : DiceFlags F) : Bytes :=
  ascii "merge-stl -f -prefix " ++ stlOutPrefix fl.args ++ ascii "-" ++ common fl.dim fl.nx fl.ny fl.nz ++ ascii "\n"

/-- What is printed for the sorted prefixes, cmd/stldice/stldice.go:100-120. -/
def script (fl : DiceFlags F) (pfxs : List Bytes) : Bytes :=
  ascii "#!/bin/bash -x\n" ++ pfxs.flatMap (voxcutLine fl) ++ if pfxs.length > 1 then mergeLine fl else []

/-- `sort.Strings`: the order of the bytes. -/
def sortStrings (l : List Bytes) : List Bytes := l.insertionSort (· ≤ ·)

/-- `main` of stldice, cmd/stldice/stldice.go:37-123: the standard output, the directory and the exit. -/
inductive DiceCmd (load : Bytes → Option (Mesh F)) (bbox : Mesh F → Box F) (env : Bytes → Key → FileEnv)
    (fl : DiceFlags F) (fs : FS) : Bytes → FS → Exit → Prop
  | usage (h : fl.args = []) : DiceCmd load bbox env fl fs [] fs .fatal
  | notMultiple (h : fl.args ≠ []) (hd : divides fl.dim [fl.nx, fl.ny, fl.nz] = .err) :
      DiceCmd load bbox env fl fs [] fs .fatal
  | divByZero (h : fl.args ≠ []) (hd : divides fl.dim [fl.nx, fl.ny, fl.nz] = .panic) :
      DiceCmd load bbox env fl fs [] fs .panic
  | badMbb (h : fl.args ≠ []) (hd : divides fl.dim [fl.nx, fl.ny, fl.nz] = .ok ()) (hm : fl.mbb = some none) :
      DiceCmd load bbox env fl fs [] fs .fatal
  | failed {mbb fs'} (h : fl.args ≠ []) (hd : divides fl.dim [fl.nx, fl.ny, fl.nz] = .ok ()) (hm : fl.mbb ≠ some none)
      (hb : mbb = fl.mbb.join) (ha : DiceArgs load bbox env fl.dim fl.nx fl.ny fl.nz fl.args fs mbb [] fs' .err) :
      DiceCmd load bbox env fl fs [] fs' .fatal
  | panics {mbb fs'} (h : fl.args ≠ []) (hd : divides fl.dim [fl.nx, fl.ny, fl.nz] = .ok ()) (hm : fl.mbb ≠ some none)
      (hb : mbb = fl.mbb.join) (ha : DiceArgs load bbox env fl.dim fl.nx fl.ny fl.nz fl.args fs mbb [] fs' .panic) :
      DiceCmd load bbox env fl fs [] fs' .panic
  | done {mbb fs' pf order} (h : fl.args ≠ []) (hd : divides fl.dim [fl.nx, fl.ny, fl.nz] = .ok ()) (hm : fl.mbb ≠ some none)
      (hb : mbb = fl.mbb.join) (ha : DiceArgs load bbox env fl.dim fl.nx fl.ny fl.nz fl.args fs mbb [] fs' (.ok pf))
      (ho : order.Perm pf.keys) : DiceCmd load bbox env fl fs (script fl (sortStrings order)) fs' .done

end
end Cmd
end StlDice
