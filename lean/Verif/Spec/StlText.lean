import Verif.Model.BinVox
import Verif.Model.Text
import Verif.Model.Marching

/-! # Specification: words, lines and STL files, without reference to the parser -/

namespace StlDice.Spec

/-- UTF-8 form of a code point below 65536. -/
def utf8 (n : Nat) : Bytes :=
  if n < 128 then [UInt8.ofNat n]
  else if n < 2048 then [UInt8.ofNat (192 + n / 64), UInt8.ofNat (128 + n % 64)]
  else [UInt8.ofNat (224 + n / 4096), UInt8.ofNat (128 + n / 64 % 64), UInt8.ofNat (128 + n % 64)]

/-- The Unicode white space characters. -/
def whiteSpace : List Nat :=
  [9, 10, 11, 12, 13, 32, 0x85, 0xA0, 0x1680, 0x2000, 0x2001, 0x2002, 0x2003, 0x2004, 0x2005, 0x2006,
   0x2007, 0x2008, 0x2009, 0x200A, 0x2028, 0x2029, 0x202F, 0x205F, 0x3000]

/-- Their UTF-8 forms. -/
def blanks : List Bytes := whiteSpace.map utf8

/-- A sequence of white space characters. -/
inductive Spaces : Bytes → Prop
  | nil : Spaces []
  | cons {x t} : x ∈ blanks → Spaces t → Spaces (x ++ t)

/-- A non-empty word without white space. -/
def Word (w : Bytes) : Prop := w ≠ [] ∧ ∀ x ∈ blanks, ¬ x <:+: w

/-- The text ends here or goes on with white space. -/
def Stops (r : Bytes) : Prop := r = [] ∨ ∃ x ∈ blanks, x <+: r

/-- The text consists of these words, separated by white space. -/
inductive Words : Bytes → List Bytes → Prop
  | nil {b} : Spaces b → Words b []
  | cons {b w r ws} : Spaces b → Word w → Stops r → Words r ws → Words (b ++ (w ++ r)) (w :: ws)

/-- The text consists of these lines, each but possibly the last ended by a newline. -/
def Lines (s : Bytes) (ls : List Bytes) : Prop :=
  (∀ l ∈ ls, (10 : UInt8) ∉ l) ∧
    (s = (ls.map (· ++ [10])).flatten ∨
     ∃ init last, ls = init ++ [last] ∧ last ≠ [] ∧ s = (init.map (· ++ [10])).flatten ++ last)

section
variable {F : Type}

/-- The vertices written in these lines: a line of the four words `vertex a b c` writes one, any other
    line none. -/
inductive VertexLines (parseF : Bytes → F) : List Bytes → List (BinVOX.Vec F) → Prop
  | nil : VertexLines parseF [] []
  | vertex {l a b c ls vs} : Words l [ascii "vertex", a, b, c] → VertexLines parseF ls vs →
      VertexLines parseF (l :: ls) (⟨parseF a, parseF b, parseF c⟩ :: vs)
  | other {l ls vs} : (∀ a b c, ¬ Words l [ascii "vertex", a, b, c]) → VertexLines parseF ls vs →
      VertexLines parseF (l :: ls) vs

/-- The vertices of the triangles, in order. -/
def corners (ts : List (Tri (BinVOX.Vec F))) : List (BinVOX.Vec F) :=
  ts.flatMap (fun t => [t.V1, t.V2, t.V3])

/-- An ASCII STL file, as any writer spells it: `solid`, per triangle a `facet` with a normal and a
    loop of three vertices, `endsolid`. -/
def stlText (fmt : F → Bytes) (name : Bytes) (normal : Tri (BinVOX.Vec F) → BinVOX.Vec F)
    (ts : List (Tri (BinVOX.Vec F))) : Bytes :=
  let vec (v : BinVOX.Vec F) : Bytes := fmt v.X ++ 32 :: fmt v.Y ++ 32 :: fmt v.Z ++ [10]
  ascii "solid " ++ name ++ ascii "\n" ++
  ts.flatMap (fun t =>
    ascii "  facet normal " ++ vec (normal t) ++ ascii "    outer loop\n" ++
    ascii "      vertex " ++ vec t.V1 ++ ascii "      vertex " ++ vec t.V2 ++ ascii "      vertex " ++ vec t.V3 ++
    ascii "    endloop\n" ++ ascii "  endfacet\n") ++
  ascii "endsolid " ++ name ++ ascii "\n"

/-- Four bytes, least significant first. -/
def le32 (n : Nat) : Bytes :=
  [UInt8.ofNat n, UInt8.ofNat (n / 256), UInt8.ofNat (n / 65536), UInt8.ofNat (n / 16777216)]

/-- A triangle in a binary STL file: normal, vertices, two further bytes; `bits` are the float32 bits
    of a coordinate. -/
def stlTri (bits : F → Nat) (normal : Tri (BinVOX.Vec F) → BinVOX.Vec F) (attr : Tri (BinVOX.Vec F) → UInt8 × UInt8)
    (t : Tri (BinVOX.Vec F)) : Bytes :=
  let vec (v : BinVOX.Vec F) : Bytes := le32 (bits v.X) ++ le32 (bits v.Y) ++ le32 (bits v.Z)
  vec (normal t) ++ vec t.V1 ++ vec t.V2 ++ vec t.V3 ++ [(attr t).1, (attr t).2]

/-- A binary STL file: 80 bytes, the number of triangles, the triangles. -/
def stlBinary (hdr : Bytes) (bits : F → Nat) (normal : Tri (BinVOX.Vec F) → BinVOX.Vec F)
    (attr : Tri (BinVOX.Vec F) → UInt8 × UInt8) (ts : List (Tri (BinVOX.Vec F))) : Bytes :=
  hdr ++ le32 ts.length ++ ts.flatMap (stlTri bits normal attr)

/-- A vector after conversion to float32 and back. -/
def asFloat32 (bits : F → Nat) (f32 : Nat → F) (v : BinVOX.Vec F) : BinVOX.Vec F :=
  ⟨f32 (bits v.X % 4294967296), f32 (bits v.Y % 4294967296), f32 (bits v.Z % 4294967296)⟩

/-- A triangle with its corners moved by `f`. -/
def moveTri {P Q : Type} (f : P → Q) (t : Tri P) : Tri Q := ⟨f t.V1, f t.V2, f t.V3⟩

end
end StlDice.Spec
