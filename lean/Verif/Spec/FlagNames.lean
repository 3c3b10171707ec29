import Verif.Spec.CmdLine

/-! # The settings of the commands -/

namespace StlDice
namespace Spec
open Flag

/-- The commands. -/
inductive Command
  | stldice | stldiceMr | mergeStl | mergeBinvox | voxcut | voxcutDice | binvoxDice | svx2stl | stl2svx | stl2svxClient | manifoldMesh
  | marchingCubes

/-- The settings of each command: name and type. -/
def settingsOf : Command → List (String × Kind)
  | .stldice => [("mbb", .str), ("dim", .int), ("nx", .int), ("ny", .int), ("nz", .int), ("smooth", .float)]
  | .stldiceMr =>
    [("stl", .str), ("dim", .int), ("nx", .int), ("ny", .int), ("nz", .int), ("distributed", .bool), ("docker", .str)]
  | .mergeStl => [("prefix", .str), ("f", .bool), ("num", .int)]
  | .mergeBinvox => [("prefix", .str), ("f", .bool)]
  | .voxcut => [("sx", .int), ("sy", .int), ("sz", .int), ("cx", .int), ("cy", .int), ("cz", .int),
      ("obinvox", .str), ("ostl", .str), ("ovox", .str), ("manifold", .bool), ("smooth", .float)]
  | .voxcutDice => [("size", .int), ("n", .bool), ("obinvox", .str), ("ostl", .str), ("ovox", .str)]
  | .binvoxDice => [("mbb", .str), ("factor", .int), ("subx", .bool), ("suby", .bool), ("subz", .bool)]
  | .stl2svx => [("stl", .str), ("dim", .int), ("nx", .int), ("ny", .int), ("nz", .int), ("bucket", .str)]
  | .stl2svxClient =>
    [("stl", .str), ("dim", .int), ("nx", .int), ("ny", .int), ("nz", .int), ("prefix", .str), ("master", .str)]
  | .svx2stl | .manifoldMesh | .marchingCubes => []

/-- A word that looks like the flag `n`: dashes and the name, perhaps `=` and a value. -/
def FlagWord (n w : Bytes) : Prop := ∃ p, Dashes p ∧ (w = p ++ n ∨ ∃ v, w = p ++ n ++ ascii "=" ++ v)

end Spec
end StlDice
