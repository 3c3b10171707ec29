import Verif.Model.BinVox
import Verif.Model.Text
import Verif.Model.Marching

/-!
# Parsing STL data: `stlToMesh`, `loadSTLA`, `loadSTLB` (server/stldice-slave/stldice-slave.go:150-218)

A mesh is the list of its triangles, a triangle the positions of its three vertices; normals
(`FixNormals`) are not modelled.  Parameters: `f32`, the float64 value of the bits of a float32, and
`parseF`, the value `gl.ParseFloats` (library fauxgl) gives for a word — it ignores errors, so it is a
total function.
-/

namespace StlDice
namespace StlText

/-- Length of the blank (`unicode.IsSpace`) with which the text begins, 0 if it begins with none.
    Non-ASCII blanks are recognised in their UTF-8 form. -/
def blankLen : Bytes → Nat
  | [] => 0
  | c :: t =>
    if c = 9 || c = 10 || c = 11 || c = 12 || c = 13 || c = 32 then 1
    else match t with
      | [] => 0
      | d :: u =>
        if c = 0xC2 && (d = 0x85 || d = 0xA0) then 2
        else match u with
          | [] => 0
          | e :: _ =>
            if (c = 0xE1 && d = 0x9A && e = 0x80) ||
              (c = 0xE2 && d = 0x80 && ((0x80 ≤ e && e ≤ 0x8A) || e = 0xA8 || e = 0xA9 || e = 0xAF)) ||
              (c = 0xE2 && d = 0x81 && e = 0x9F) || (c = 0xE3 && d = 0x80 && e = 0x80) then 3 else 0

/-- Add a word to the list unless it is empty. -/
def emit (cur : Bytes) (ws : List Bytes) : List Bytes := if cur = [] then ws else cur :: ws

/-- The loop of `strings.Fields`: the word read so far, the bytes of the current blank still to be
    skipped, the rest of the text. -/
def fieldsAux (cur : Bytes) : Nat → Bytes → List Bytes
  | _, [] => emit cur []
  | k + 1, _ :: t => fieldsAux cur k t
  | 0, c :: t =>
    match blankLen (c :: t) with
    | 0 => fieldsAux (cur ++ [c]) 0 t
    | n + 1 => emit cur (fieldsAux [] n t)

/-- `strings.Fields` (standard library), as used in stldice-slave.go:179. -/
def fields (s : Bytes) : List Bytes := fieldsAux [] 0 s

/-- Text up to each newline; a last line without newline counts if it is not empty. -/
def linesAux (cur : Bytes) : Bytes → List Bytes
  | [] => if cur = [] then [] else [cur]
  | c :: t => if c = nl then cur :: linesAux [] t else linesAux (cur ++ [c]) t

/-- `bufio.Scanner` drops one carriage return at the end of a line. -/
def dropCR (l : Bytes) : Bytes := if l.getLast? = some 13 then l.dropLast else l

/-- The longest line `bufio.Scanner` delivers: its buffer grows to 64 KiB and must not be full before
    the newline (or the end) is seen. -/
def maxLine : Nat := 65535

/-- `bufio.Scanner` with `ScanLines` (standard library), stldice-slave.go:176-178: the lines delivered,
    and whether `scanner.Err()` is nil (otherwise it is `bufio.ErrTooLong`). -/
def scanLines : List Bytes → List Bytes × Bool
  | [] => ([], true)
  | l :: ls => if maxLine < l.length then ([], false) else
      let r := scanLines ls
      (dropCR l :: r.1, r.2)

section
variable {F : Type}

/-- The loop over the lines, stldice-slave.go:177-184. -/
def vertexes (parseF : Bytes → F) : List Bytes → List (BinVOX.Vec F)
  | [] => []
  | line :: ls =>
    match fields line with
    | [w, a, b, c] =>
      if w = ascii "vertex" then ⟨parseF a, parseF b, parseF c⟩ :: vertexes parseF ls
      else vertexes parseF ls
    | _ => vertexes parseF ls

/-- The loop building the triangles, stldice-slave.go:185-193; `none` is the panic (index out of
    range) when one or two vertices are left over. -/
def groupTris : List (BinVOX.Vec F) → Option (List (Tri (BinVOX.Vec F)))
  | [] => some []
  | a :: b :: c :: vs => (groupTris vs).map (⟨a, b, c⟩ :: ·)
  | _ => none

/-- `loadSTLA`, stldice-slave.go:174-195.  Simplification: a mesh returned together with an error is
    just the error (both callers discard it). -/
def loadSTLA (parseF : Bytes → F) (s : Bytes) : Res (List (Tri (BinVOX.Vec F))) :=
  let sc := scanLines (linesAux [] s)
  match groupTris (vertexes parseF sc.1) with
  | none => .panic
  | some ts => if sc.2 then .ok ts else .err

/-- A little-endian unsigned number. -/
def le (b : Bytes) : Nat := b.foldr (fun c n => c.toNat + 256 * n) 0

/-- The vector of three float32 at offset `o`, stldice-slave.go:211-213. -/
def vecAt (f32 : Nat → F) (b : Bytes) (o : Nat) : BinVOX.Vec F :=
  ⟨f32 (le ((b.drop o).take 4)), f32 (le ((b.drop (o + 4)).take 4)), f32 (le ((b.drop (o + 8)).take 4))⟩

/-- The loop of `loadSTLB`, stldice-slave.go:205-217: `gl.STLTriangle` is a normal, three vertices of
    three float32 each, and two bytes. -/
def loadTris (f32 : Nat → F) : Nat → Bytes → Res (List (Tri (BinVOX.Vec F)))
  | 0, _ => .ok []
  | n + 1, s =>
    if s.length < 50 then .err
    else match loadTris f32 n (s.drop 50) with
      | .ok ts => .ok (⟨vecAt f32 s 12, vecAt f32 s 24, vecAt f32 s 36⟩ :: ts)
      | .err => .err
      | .panic => .panic

/-- The header `gl.STLHeader`: 80 bytes and the number of triangles, little-endian. -/
def headerCount (s : Bytes) : Option Nat :=
  if s.length < 84 then none else some (le ((s.drop 80).take 4))

/-- `loadSTLB`, stldice-slave.go:198-218. -/
def loadSTLB (f32 : Nat → F) (s : Bytes) : Res (List (Tri (BinVOX.Vec F))) :=
  match headerCount s with
  | none => .err
  | some n => loadTris f32 n (s.drop 84)

/-- `stlToMesh`, stldice-slave.go:150-171. -/
def stlToMesh (f32 : Nat → F) (parseF : Bytes → F) (s : Bytes) : Res (List (Tri (BinVOX.Vec F))) :=
  match headerCount s with
  | none => .err
  | some n => if s.length = n * 50 + 84 then loadSTLB f32 s else loadSTLA parseF s

end
end StlText
end StlDice
