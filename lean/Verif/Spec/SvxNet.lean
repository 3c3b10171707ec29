import Verif.Model.SvxNet
import Verif.Props.SvxBack

/-! # Specification of network jobs -/

namespace StlDice
namespace Spec
open BinVOX

/-- `parts` are the pieces of `s` between the separators. -/
def Pieces (sep : UInt8) (s : Bytes) (parts : List Bytes) : Prop :=
  parts ≠ [] ∧ (∀ p ∈ parts, sep ∉ p) ∧ s = [sep].intercalate parts

/-- The files of these names hold these triangles. -/
def FilesHold {F : Type} (load : Bytes → Option (List (Tri (Vec F)))) (d : Cmd.Disk) (names : List Bytes)
    (files : List (List (Tri (Vec F)))) : Prop :=
  List.Forall₂ (fun n ts => ∃ c, d n = some c ∧ load c = some ts) names files

/-- An image without what lies outside its bounds. -/
def clip (img : Image) : Image :=
  ⟨img.W, img.H, fun x y => decide (0 ≤ x ∧ x < img.W ∧ 0 ≤ y ∧ y < img.H) && img.white x y⟩

/-- Text that is the same inside an XML attribute and in a `Sscanf` format: letters, digits, `-`, `_`, `.`, `/`. -/
def PlainText (p : Bytes) : Prop :=
  ∀ c ∈ p, isDigit c = true ∨ (97 ≤ c ∧ c ≤ 122) ∨ (65 ≤ c ∧ c ≤ 90) ∨ c = 45 ∨ c = 95 ∨ c = 46 ∨ c = 47

/-- What a reader sees of the manifest of a job. -/
def manifestGrid {F : Type} [GoFloat F] (r : SvxReq F) : SvxGrid F where
  X := (manifestOf r).gridSizeX
  Y := (manifestOf r).gridSizeY
  Z := (manifestOf r).gridSizeZ
  voxelSize := (manifestOf r).voxelSize
  channels := [⟨true, some {
    pre := fmtInt r.Dim ++ ascii "/" ++ r.OutPrefix ++ ascii "-" ++ fmtInt r.Dim ++ ascii "-" ++ fmtInt r.NX ++ ascii "-" ++
      fmtInt r.NY ++ ascii "-" ++ fmtInt r.NZ ++ ascii "-"
    width := 4
    post := ascii ".png" }⟩]

/-- What a reader sees of an entry of an archive. -/
def seen {F : Type} [GoFloat F] (unpng : Bytes → Option Pic) : Bytes × Net.Content F → ZFile F
  | (n, .manifest r) => ⟨n, true, some (manifestGrid r), none⟩
  | (n, .blank sz) => ⟨n, true, none, some (Image.blank sz sz).pic⟩
  | (n, .raw b) => ⟨n, true, none, unpng b⟩

/-- The libraries read what they have written: archives entry by entry, the XML of a manifest with plain text in
    it, and the pixels of images. -/
structure Faithful {F : Type} [GoFloat F] (codec : Net.Codec F) (unzip : Bytes → Option (List (ZFile F)))
    (unpng : Bytes → Option Pic) : Prop where
  png : ∀ img, unpng (codec.png img) = some (clip img).pic
  zip : ∀ es, (∀ n r, (n, Net.Content.manifest r) ∈ es → PlainText r.OutPrefix) →
    unzip (codec.zip es) = some (es.map (seen unpng))

end Spec
end StlDice
