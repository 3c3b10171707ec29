import Verif.Spec.Shell
import Verif.Spec.IntText

/-! # Specification of the printed forms of neighbour sets -/

namespace StlDice.Spec

/-- A coordinate of an offset as the names of the constants spell it: `_1`, `0`, `1`. -/
def axisName (c : Int) : Bytes := if c = -1 then ascii "_1" else if c = 0 then ascii "0" else ascii "1"

/-- The name of the neighbour at an offset, `X_1Y0Z1` for (-1, 0, 1). -/
def nbrName (o : Int × Int × Int) : Bytes :=
  ascii "X" ++ axisName o.1 ++ ascii "Y" ++ axisName o.2.1 ++ ascii "Z" ++ axisName o.2.2

/-- `l` lists exactly the neighbour offsets with property `P`, each once. -/
def ListsOffsets (l : List (Int × Int × Int)) (P : Int → Int → Int → Prop) : Prop :=
  l.Nodup ∧ ∀ x y z, (x, y, z) ∈ l ↔ IsOffset x y z ∧ P x y z

/-- `l` lists exactly the corners 0 … 7 of a grid cell with property `P`, each once, in ascending order. -/
def ListsCorners (l : List Nat) (P : Nat → Prop) : Prop := l.Pairwise (· < ·) ∧ ∀ i, i ∈ l ↔ i < 8 ∧ P i

end StlDice.Spec
