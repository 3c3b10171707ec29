import Verif.Model.BinvoxDiceCmd

/-! # The script of binvox-dice, killed and run again -/

namespace StlDice
namespace Cmd
open GoFloat BinVOX

section
variable {F : Type} [GoFloat F] [FloatText F]

/-- The external program binvox killed while it writes (run by a line of cmd/binvox-dice/binvox-dice.go:115): of the file
    it makes, under the name it would have, a part is there. -/
inductive BinvoxTorn (tool : Bytes → List Bytes → Option Bytes) (d : Disk) : List Bytes → Disk → Prop
  | torn {n1 n2 n3 n4 n5 n6 stem c t k} (h : (d (stem ++ ascii ".stl")).bind (fun f => tool f [n1, n2, n3, n4, n5, n6]) = some c)
      (hk : d (numbered stem k) = none) (hj : ∀ j < k, d (numbered stem j) ≠ none) (ht : t <+: c) :
      BinvoxTorn tool d [ascii "binvox", ascii "-pb", ascii "-d", ascii "1024", ascii "-bb", n1, n2, n3, n4, n5, n6, stem ++ ascii ".stl"]
        (put d (numbered stem k) t)

/-- The lines of the script (cmd/binvox-dice/binvox-dice.go:113-123) run up to a moment at which everything is killed: between two
    lines, or while a line runs.  A voxcut killed while it writes its file has left a part of it, like one whose write failed
    (cmd/voxcut/voxcut.go:119): that is one of the outcomes of its line.
    Simplification: what was written to a file is a beginning of its content (no power failure). -/
inductive BinvoxKilled (tool : Bytes → List Bytes → Option Bytes) (lib : GL F) : Disk → List (List Bytes) → Disk → Prop
  | now {d ls} : BinvoxKilled tool lib d ls d
  | line {d ws d' ls d''} (h : BinvoxStep tool lib d ws d') (hr : BinvoxKilled tool lib d' ls d'') : BinvoxKilled tool lib d (ws :: ls) d''
  | torn {d ws d' ls} (h : BinvoxTorn tool d ws d') : BinvoxKilled tool lib d (ws :: ls) d'

end
end Cmd
end StlDice
