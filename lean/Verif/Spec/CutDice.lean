import Verif.Spec.Format
import Verif.Spec.DiceScript
import Verif.Model.Commands
import Verif.Model.VoxcutDice

/-! # Specification of what voxcut-dice makes of a model -/

namespace StlDice
namespace Spec
open BinVOX

/-- Stepping from 0 by `size` below `n` stays within the 64-bit integers, the step that reaches `n` included. -/
def StepsFit (n size : Int) : Prop := ∀ q, 0 ≤ q → q < n → size ∣ q → q + size < 2 ^ 63

/-- The same for the three dimensions of a model. -/
def TilesFit (nx ny nz size : Int) : Prop := StepsFit nx size ∧ StepsFit ny size ∧ StepsFit nz size

/-- The file for tile `t`: `prefix-XXXX-YYYY-ZZZZ-SIZE-SIZE-SIZE.ext`, numbers with at least four digits;
    no file if the prefix is empty. -/
def cutOut (pre : Bytes) (ext : String) (size : Int) (t : Key) : Bytes :=
  if pre = [] then []
  else dashed [pre, padInt 4 t.X, padInt 4 t.Y, padInt 4 t.Z, padInt 4 size, padInt 4 size, padInt 4 size] ++ ascii ext

/-- The files for tile `t`. -/
def cutOuts (fl : CutDiceFlags) (t : Key) : List Bytes :=
  [cutOut fl.binvoxPrefix ".binvox" fl.size t, cutOut fl.stlPrefix ".stl" fl.size t, cutOut fl.voxPrefix ".vox" fl.size t]

/-- What voxcut should understand for tile `t`. -/
def tileFlags (fl : CutDiceFlags) (t : Key) : Cmd.CutFlags where
  obinvox := cutOut fl.binvoxPrefix ".binvox" fl.size t
  ostl := cutOut fl.stlPrefix ".stl" fl.size t
  ovox := cutOut fl.voxPrefix ".vox" fl.size t
  region := ⟨t.X, t.Y, t.Z, fl.size, fl.size, fl.size⟩
  manifold := false
  files := fl.files

/-- `t` is the lower corner of a tile of a model with these dimensions. -/
def IsTile (nx ny nz size : Int) (t : Key) : Prop :=
  InDims nx ny nz t ∧ size ∣ t.X ∧ size ∣ t.Y ∧ size ∣ t.Z

/-- The order of the tiles: first by z, then by y, then by x. -/
def Before (u t : Key) : Prop := u.Z < t.Z ∨ u.Z = t.Z ∧ (u.Y < t.Y ∨ u.Y = t.Y ∧ u.X < t.X)

/-- The tile with one more layer in each direction: `[t, t+size]`. -/
def InTilePlus (size : Int) (t k : Key) : Prop :=
  (t.X ≤ k.X ∧ k.X ≤ t.X + size) ∧ (t.Y ≤ k.Y ∧ k.Y ≤ t.Y + size) ∧ (t.Z ≤ k.Z ∧ k.Z ≤ t.Z + size)

end Spec
end StlDice
