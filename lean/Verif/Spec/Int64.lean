import Verif.Model.BinVoxIO

/-! # When boxes of voxels stay within the 64-bit integers -/

namespace StlDice.Spec

/-- `x` is the value of a 64-bit integer. -/
def Fits64 (x : Int) : Prop := -(2 ^ 63) ≤ x ∧ x < 2 ^ 63

/-- The upper end of a box that starts at `s` and asks for `c` of `n` layers (0, or more than there are, for all). -/
def boxEnd (s c n : Int) : Int := if c = 0 ∨ c > n then s + n else s + c

/-- The upper ends of the box to be read from a grid of `nx × ny × nz` voxels are 64-bit integers. -/
def EndsFit (r : Region) (nx ny nz : Int) : Prop :=
  boxEnd r.sx r.cx nx < 2 ^ 63 ∧ boxEnd r.sy r.cy ny < 2 ^ 63 ∧ boxEnd r.sz r.cz nz < 2 ^ 63

instance (r : Region) (nx ny nz : Int) : Decidable (EndsFit r nx ny nz) := by unfold EndsFit; infer_instance

/-- A box of `cx × cy × cz` voxels to be written: its ends are 64-bit integers and so is the number of its voxels. -/
def BoxFits (r : Region) : Prop :=
  Fits64 (r.sx + r.cx) ∧ Fits64 (r.sy + r.cy) ∧ Fits64 (r.sz + r.cz) ∧ r.cx.toNat * r.cy.toNat * r.cz.toNat < 2 ^ 63

end StlDice.Spec
