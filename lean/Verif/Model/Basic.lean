import Mathlib.Data.Rat.Floor

/-!
# Basic Go values used by the whole model

Go `int` is modelled by unbounded `Int` (overflow of 64-bit indices is not modelled).
`nil`-able maps are `Option (GoMap ..)`.
-/

namespace StlDice

/-- `binvox.Key`, binvox/binvox.go:40-42 (also vshell `key`, vshell/vshell.go:50-52). -/
structure Key where
  X : Int
  Y : Int
  Z : Int
deriving DecidableEq, Repr

/-- Componentwise shift of a key (used by vshell/merge.go:54-56 and specs). -/
def Key.shift (k : Key) (dx dy dz : Int) : Key := ⟨k.X + dx, k.Y + dy, k.Z + dz⟩

/-- Result of a Go call that may return an error or panic; error texts are not modelled. -/
inductive Res (α : Type) where
  | ok (a : α)
  | err
  | panic
deriving DecidableEq, Repr

/-- A Go map: its content listed in *some* order, one entry per key (see `GoMap.WF`).
    A `range` over a map is modelled by an explicit enumeration handed to the function that
    loops; theorems quantify over all permutations of the keys. -/
abbrev GoMap (K V : Type) := List (K × V)

namespace GoMap
variable {K V : Type} [DecidableEq K]

/-- `v, ok := m[k]`. -/
def get (m : GoMap K V) (k : K) : Option V :=
  match m with
  | [] => none
  | e :: m => if e.1 = k then some e.2 else get m k

/-- `m[k] = v` on a non-nil map. -/
def set (m : GoMap K V) (k : K) (v : V) : GoMap K V :=
  match m with
  | [] => [(k, v)]
  | e :: m => if e.1 = k then (k, v) :: m else e :: set m k v

/-- `delete(m, k)`. -/
def delete (m : GoMap K V) (k : K) : GoMap K V := m.filter (fun e => e.1 ≠ k)

/-- the keys of the map. -/
def keys (m : GoMap K V) : List K := m.map (·.1)

/-- A real map has one entry per key. -/
def WF (m : GoMap K V) : Prop := (keys m).Nodup

/-- the map has the key. -/
def has (m : GoMap K V) (k : K) : Bool := (get m k).isSome

end GoMap

/-- The floating point operations the code uses, without any law: a theorem stated for every
    `GoFloat F` holds for IEEE doubles (instance `Float` below) as well as for exact
    rational arithmetic (instance `ℚ`). -/
class GoFloat (F : Type) where
  /-- `float64(i)` -/
  ofInt : Int → F
  /-- a decimal literal of the source, e.g. `0.5`, `1e-9` -/
  lit : ℚ → F
  add : F → F → F
  sub : F → F → F
  mul : F → F → F
  div : F → F → F
  neg : F → F
  lt : F → F → Bool
  le : F → F → Bool
  /-- Go `==` on floats -/
  eq : F → F → Bool
  /-- `math.Floor` -/
  floor : F → F
  /-- `math.Ceil` -/
  ceil : F → F
  /-- Go conversion `int(x)` (truncation towards zero) -/
  toInt : F → Int

/-- Exact arithmetic. -/
instance : GoFloat ℚ where
  ofInt i := (i : ℚ)
  lit q := q
  add := (· + ·)
  sub := (· - ·)
  mul := (· * ·)
  div := (· / ·)
  neg := Neg.neg
  lt a b := decide (a < b)
  le a b := decide (a ≤ b)
  eq a b := decide (a = b)
  floor q := ((⌊q⌋ : Int) : ℚ)
  ceil q := ((⌈q⌉ : Int) : ℚ)
  toInt q := if 0 ≤ q then ⌊q⌋ else ⌈q⌉

/-- IEEE doubles as implemented by Lean's (opaque) `Float`; only used to show that the law-free
    theorems have this instance too. -/
instance : GoFloat Float where
  ofInt := Float.ofInt
  lit q := Float.ofInt q.num / Float.ofNat q.den
  add := (· + ·)
  sub := (· - ·)
  mul := (· * ·)
  div := (· / ·)
  neg := Float.neg
  lt a b := decide (a < b)
  le a b := decide (a ≤ b)
  eq a b := a == b
  floor := Float.floor
  ceil := Float.ceil
  toInt x := x.toInt64.toInt

end StlDice
