import Verif.Lemmas.Manifold

/-! # ManifoldMesh on well-composed models: finite facts about the handled cells -/

namespace StlDice
namespace Manifold
open Spec
open Marching (corner cornerOff kSub kCross kDot)

/-- distance of two corners of a block -/
def cdist (i j : Nat) : Nat := dist (cornerOff i) (cornerOff j)

/-- The block `n` is well-composed. -/
def wcBlock (n : Nat) : Bool :=
  (List.range 8).all fun i => (List.range 8).all fun j =>
    !(n.testBit i == n.testBit j && decide (2 ≤ cdist i j)) ||
      (List.range 8).any fun l => decide (l ≠ i) && decide (l ≠ j) &&
        decide (cdist i l + cdist l j = cdist i j) && (n.testBit l == n.testBit i)

theorem wc_good : ∀ n ∈ List.range 256, wcBlock n = true → n ∉ twistedChains → n ∈ goodConfigs := by
  decide +kernel

/-- Normal of a template triangle. -/
def kNormal (t : Tri Key) : Key := kCross (kSub t.V2 t.V1) (kSub t.V3 t.V1)

def kSum (l : List Key) : Key := ⟨(l.map Key.X).sum, (l.map Key.Y).sum, (l.map Key.Z).sum⟩

def bi (n i : Nat) : Int := if n.testBit i then 1 else 0

/-- In a well-composed handled cell every triangle lies in a plane through the centre, and the normals
    add up to twice the number of present/absent pairs along each axis. -/
theorem wc_area : ∀ n ∈ List.range 256, wcBlock n = true → n ∉ twistedChains →
    (∀ t ∈ gridTris n, kDot t.V1 (kNormal t) = 0) ∧
    ((gridTris n).map fun t => (kNormal t).X).sum =
      2 * ((bi n 0 - bi n 1) + (bi n 3 - bi n 2) + (bi n 4 - bi n 5) + (bi n 7 - bi n 6)) ∧
    ((gridTris n).map fun t => (kNormal t).Y).sum =
      2 * ((bi n 3 - bi n 0) + (bi n 2 - bi n 1) + (bi n 7 - bi n 4) + (bi n 6 - bi n 5)) ∧
    ((gridTris n).map fun t => (kNormal t).Z).sum =
      2 * ((bi n 0 - bi n 4) + (bi n 1 - bi n 5) + (bi n 2 - bi n 6) + (bi n 3 - bi n 7)) := by
  decide +kernel

/-- Corner `i` relative to the centre of the cell, in half voxels. -/
def cpos (i : Nat) : Key := ⟨2 * (cornerOff i).X - 1, 2 * (cornerOff i).Y + 1, 2 * (cornerOff i).Z - 1⟩

def kCent (t : Tri Key) : Key := kSum [t.V1, t.V2, t.V3]

/-- In a well-composed handled cell every triangle separates a present from an absent corner: the
    normal is a positive multiple of the step between them and the centroid lies in the common face. -/
theorem wc_skin : ∀ n ∈ List.range 256, wcBlock n = true → n ∉ twistedChains → ∀ t ∈ gridTris n,
    ∃ i ∈ List.range 8, ∃ j ∈ List.range 8, n.testBit i = true ∧ n.testBit j = false ∧
      kSub (cornerOff j) (cornerOff i) ∈ unitSteps ∧
      0 < kDot (kNormal t) (kSub (cornerOff j) (cornerOff i)) ∧
      kNormal t = ⟨kDot (kNormal t) (kSub (cornerOff j) (cornerOff i)) * (kSub (cornerOff j) (cornerOff i)).X,
        kDot (kNormal t) (kSub (cornerOff j) (cornerOff i)) * (kSub (cornerOff j) (cornerOff i)).Y,
        kDot (kNormal t) (kSub (cornerOff j) (cornerOff i)) * (kSub (cornerOff j) (cornerOff i)).Z⟩ ∧
      0 ≤ (kCent t).X * (cpos i).X ∧ 0 ≤ (kCent t).Y * (cpos i).Y ∧ 0 ≤ (kCent t).Z * (cpos i).Z ∧
      0 ≤ (kCent t).X * (cpos j).X ∧ 0 ≤ (kCent t).Y * (cpos j).Y ∧ 0 ≤ (kCent t).Z * (cpos j).Z := by
  decide +kernel

def mixed (n i j : Nat) : Int := if n.testBit i = n.testBit j then 0 else 1

/-- In a well-composed handled cell the total area is exactly that of the quarter faces between present
    and absent corners. -/
theorem wc_total : ∀ n ∈ List.range 256, wcBlock n = true → n ∉ twistedChains →
    ((gridTris n).map fun t => |(kNormal t).X| + |(kNormal t).Y| + |(kNormal t).Z|).sum =
      2 * ((mixed n 0 1 + mixed n 3 2 + mixed n 4 5 + mixed n 7 6) +
        (mixed n 3 0 + mixed n 2 1 + mixed n 7 4 + mixed n 6 5) +
        (mixed n 0 4 + mixed n 1 5 + mixed n 2 6 + mixed n 3 7)) := by
  decide +kernel

end Manifold
end StlDice
