import Verif.Model.BinVoxIO

/-! # Specification vocabulary for the binvox and vsh file formats

Independent of how the reader and writer loop: what the bytes mean. -/

namespace StlDice.Spec

/-- The voxel values described by a list of (value, count) pairs. -/
def expand (ps : List (UInt8 × UInt8)) : List UInt8 :=
  ps.flatMap fun p => List.replicate p.2.toNat p.1

/-- The bytes of a list of pairs. -/
def pairBytes (ps : List (UInt8 × UInt8)) : Bytes := ps.flatMap fun p => [p.1, p.2]

/-- Legal pairs: value 0 or 1, count not 0. -/
def LegalPairs (ps : List (UInt8 × UInt8)) : Prop := ∀ p ∈ ps, (p.1 = 0 ∨ p.1 = 1) ∧ p.2 ≠ 0

/-- Position of the `i`-th voxel of the data: y runs fastest, then z, then x. -/
def keyAt (ny nz i : Nat) : Key := ⟨((i / ny) / nz : Nat), (i % ny : Nat), ((i / ny) % nz : Nat)⟩

/-- `k` lies in the box `[0,nx)×[0,ny)×[0,nz)`. -/
def InDims (nx ny nz : Int) (k : Key) : Prop :=
  0 ≤ k.X ∧ k.X < nx ∧ 0 ≤ k.Y ∧ k.Y < ny ∧ 0 ≤ k.Z ∧ k.Z < nz

/-- `k` lies in the half-open region `[s, s+c)` in each direction. -/
def InHalfOpen (r : Region) (k : Key) : Prop :=
  r.sx ≤ k.X ∧ k.X < r.sx + r.cx ∧ r.sy ≤ k.Y ∧ k.Y < r.sy + r.cy ∧
    r.sz ≤ k.Z ∧ k.Z < r.sz + r.cz

/-- `k` lies in the closed region `[s, s+c]` in each direction. -/
def InClosed (r : Region) (k : Key) : Prop :=
  r.sx ≤ k.X ∧ k.X ≤ r.sx + r.cx ∧ r.sy ≤ k.Y ∧ k.Y ≤ r.sy + r.cy ∧
    r.sz ≤ k.Z ∧ k.Z ≤ r.sz + r.cz

/-- The voxels a model holds (white map only). -/
def Vox {F : Type} (b : BinVOX F) (k : Key) : Prop := b.white.has k = true

/-- The whole-model region of `Read` / `Write`. -/
def wholeRegion : Region := ⟨0, 0, 0, 0, 0, 0⟩

/-- One decimal digit or more and the number they denote. -/
inductive DecText : Bytes → Nat → Prop
  | one {c v} (h : (ascii "0123456789")[v]? = some c) : DecText [c] v
  | more {s n c v} (hs : DecText s n) (h : (ascii "0123456789")[v]? = some c) : DecText (s ++ [c]) (10 * n + v)

/-- Decimal digits `ds` (at least one) denote the number `n` that fits a Go int. -/
def IsNumber (ds : Bytes) (n : Int) : Prop := ∃ m : Nat, DecText ds m ∧ n = m ∧ m < 2 ^ 63

/-- Tab, newline, form feed, carriage return or space. -/
def IsBlank (c : UInt8) : Prop := c = 9 ∨ c = 10 ∨ c = 12 ∨ c = 13 ∨ c = 32

/-- Blanks ending a line: whitespace without newline, then the newline. -/
def IsLineEnd (ws : Bytes) : Prop :=
  ∃ w, ws = w ++ [nl] ∧ ∀ c ∈ w, IsBlank c ∧ c ≠ nl

/-- A non-empty word without blanks. -/
def IsWord (w : Bytes) : Prop := w ≠ [] ∧ ∀ c ∈ w, ¬ IsBlank c

/-- `dim nx ny nz` line. -/
def IsDimLine (l : Bytes) (nx ny nz : Int) : Prop :=
  ∃ a b c e, l = ascii "dim " ++ a ++ ascii " " ++ b ++ ascii " " ++ c ++ e ∧
    IsNumber a nx ∧ IsNumber b ny ∧ IsNumber c nz ∧ IsLineEnd e

/-- `translate tx ty tz` line. -/
def IsTranslateLine {F : Type} [FloatText F] (l : Bytes) (tx ty tz : F) : Prop :=
  ∃ a b c e, l = ascii "translate " ++ a ++ ascii " " ++ b ++ ascii " " ++ c ++ e ∧
    IsWord a ∧ IsWord b ∧ IsWord c ∧ IsLineEnd e ∧
    FloatText.parseFloat a = some tx ∧ FloatText.parseFloat b = some ty ∧
    FloatText.parseFloat c = some tz

/-- `scale s` line. -/
def IsScaleLine {F : Type} [FloatText F] (l : Bytes) (s : F) : Prop :=
  ∃ a e, l = ascii "scale " ++ a ++ e ∧ IsWord a ∧ IsLineEnd e ∧ FloatText.parseFloat a = some s

/-- The bytes `hb` are a well-formed header with the given magic line and fields. -/
def IsHeader {F : Type} [FloatText F] (magic : Bytes) (h : Header F) (hb : Bytes) : Prop :=
  ∃ d t s, hb = magic ++ d ++ t ++ s ++ ascii "data\n" ∧
    IsDimLine d h.nx h.ny h.nz ∧ IsTranslateLine t h.tx h.ty h.tz ∧ IsScaleLine s h.scale

/-- Number of voxels the reader lets a file describe: `nx*ny*nz`, a zero `ny` or `nz` counting as 1. -/
def capacity {F : Type} (h : Header F) : Nat :=
  h.nx.toNat * max h.nz.toNat 1 * max h.ny.toNat 1

end StlDice.Spec
