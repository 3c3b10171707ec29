import Verif.Model.Basic
import Verif.Model.Text

/-! # Specification of the names of svx2stl -/

namespace StlDice
namespace Spec

/-- The name of the file svx2stl writes for an argument: `.stl` in place of `.svx`, or behind it. -/
def SvxOutName (arg out : Bytes) : Prop :=
  (∃ stem, arg = stem ++ ascii ".svx" ∧ out = stem ++ ascii ".stl") ∨
  ((¬ ∃ stem, arg = stem ++ ascii ".svx") ∧ out = arg ++ ascii ".stl")

end Spec
end StlDice
