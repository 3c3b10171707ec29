import Verif.Model.Flag
import Verif.Spec.IntText

/-! # Specification of the command lines of Go programs -/

namespace StlDice
namespace Spec
open Flag

/-- A name that a flag can have: not empty, without a leading dash, without `=`. -/
def FlagName (n : Bytes) : Prop := n ≠ [] ∧ n.head? ≠ some 45 ∧ (61 : UInt8) ∉ n

/-- One or two dashes. -/
def Dashes (p : Bytes) : Prop := p = ascii "-" ∨ p = ascii "--"

/-- The ways to write on the command line that flag `n` shall have the value `v`: `-n=v`; `-n v` unless `n`
    is boolean; `-n` for a boolean that becomes true.  Two dashes mean the same as one. -/
inductive Written (kind : Bytes → Option Kind) : Bytes × Bytes → List Bytes → Prop
  | eq {n v p} (hp : Dashes p) : Written kind (n, v) [p ++ n ++ ascii "=" ++ v]
  | next {n v p} (hp : Dashes p) (hk : kind n ≠ some .bool) : Written kind (n, v) [p ++ n, v]
  | bare {n p} (hp : Dashes p) (hk : kind n = some .bool) : Written kind (n, ascii "true") [p ++ n]

/-- The texts of a truth value. -/
def BoolText (s : Bytes) (b : Bool) : Prop :=
  if b then s ∈ ["1", "t", "T", "true", "True", "TRUE"].map ascii
  else s ∈ ["0", "f", "F", "false", "False", "FALSE"].map ascii

/-- The text `v` is a value of this type; `float` tells which texts are real numbers. -/
def ValueText (float : Bytes → Bool) : Kind → Bytes → Prop
  | .bool, v => ∃ b, BoolText v b
  | .int, v => ∃ i, IntText v i
  | .float, v => float v = true
  | .str, _ => True

/-- A declared flag and a value of its type. -/
def Setting (kind : Bytes → Option Kind) (float : Bytes → Bool) (s : Bytes × Bytes) : Prop :=
  FlagName s.1 ∧ ∃ k, kind s.1 = some k ∧ ValueText float k s.2

/-- An argument that can stand first among the files: it does not begin with a dash, or is a dash alone. -/
def FirstFile (s : Bytes) : Prop := s.head? ≠ some 45 ∨ s = ascii "-"

/-- The command line `args` consists of these settings, in this order, and these files. -/
def CommandLine (kind : Bytes → Option Kind) (float : Bytes → Bool) (sets : List (Bytes × Bytes)) (files args : List Bytes) : Prop :=
  (∀ s ∈ sets, Setting kind float s) ∧
  ∃ pieces, List.Forall₂ (Written kind) sets pieces ∧
    (args = pieces.flatten ++ files ∧ (∀ f, files.head? = some f → FirstFile f) ∨
      args = pieces.flatten ++ ascii "--" :: files)

/-- The text set for flag `n`: the last one, or none. -/
def LastSet (sets : List (Bytes × Bytes)) (n : Bytes) : Option Bytes → Prop
  | none => ∀ s ∈ sets, s.1 ≠ n
  | some v => ∃ before after, sets = before ++ (n, v) :: after ∧ ∀ s ∈ after, s.1 ≠ n

/-- Flag `n` of type int with this default has the value `i`. -/
def IntFlag (sets : List (Bytes × Bytes)) (n : String) (dflt i : Int) : Prop :=
  (LastSet sets (ascii n) none ∧ i = dflt) ∨ ∃ v, LastSet sets (ascii n) (some v) ∧ IntText v i

/-- Flag `n` of type bool with default false has the value `b`. -/
def BoolFlag (sets : List (Bytes × Bytes)) (n : String) (b : Bool) : Prop :=
  (LastSet sets (ascii n) none ∧ b = false) ∨ ∃ v, LastSet sets (ascii n) (some v) ∧ BoolText v b

/-- Flag `n` of type bool with this default has the value `b`. -/
def BoolFlagD (sets : List (Bytes × Bytes)) (n : String) (dflt b : Bool) : Prop :=
  (LastSet sets (ascii n) none ∧ b = dflt) ∨ ∃ v, LastSet sets (ascii n) (some v) ∧ BoolText v b

/-- Flag `n` of type string with this default has the value `s`. -/
def StrFlag (sets : List (Bytes × Bytes)) (n : String) (dflt s : Bytes) : Prop :=
  (LastSet sets (ascii n) none ∧ s = dflt) ∨ LastSet sets (ascii n) (some s)

/-- `-h` or `-help`, with one or two dashes, alone or with `=` and anything, if no flag of this name is declared. -/
def HelpWord (kind : Bytes → Option Kind) (w : Bytes) : Prop :=
  ∃ p n, Dashes p ∧ (n = ascii "h" ∨ n = ascii "help") ∧ kind n = none ∧ (w = p ++ n ∨ ∃ v, w = p ++ n ++ ascii "=" ++ v)

/-- The arguments ask for help: settings, then `-h` or `-help`; the rest does not matter. -/
def AsksHelp (kind : Bytes → Option Kind) (float : Bytes → Bool) (args : List Bytes) : Prop :=
  ∃ (sets : List (Bytes × Bytes)) (pieces : List (List Bytes)) (w : Bytes) (rest : List Bytes), (∀ s ∈ sets, Setting kind float s) ∧
    List.Forall₂ (Written kind) sets pieces ∧ HelpWord kind w ∧ args = pieces.flatten ++ w :: rest

end Spec
end StlDice
