import Verif.Model.BinVox
import Verif.Model.Text

/-!
# The bounding-box string: `mbbRE` and `parseMBB` (cmd/stldice/stldice.go, cmd/binvox-dice/binvox-dice.go)

The expression consists of single-byte classes, so a small matcher with the priorities of Go's
`regexp` (leftmost-first: greedy operators try the longest first, `?` tries to take first) is modelled.
Simplification: the text is matched byte by byte, not rune by rune; all classes are ASCII sets or
complements of ASCII sets and every group is followed by an ASCII byte or the end, so both agree.
-/

namespace StlDice

/-- One element of the expression. -/
inductive ReItem where
  /-- `x` -/
  | one (p : UInt8 → Bool)
  /-- `x?` -/
  | opt (p : UInt8 → Bool)
  /-- `x*` -/
  | star (p : UInt8 → Bool)
  /-- `(x+)` -/
  | grp (p : UInt8 → Bool)

/-- The first `some` among `f n, f (n-1), …, f 0`. -/
def tryDown {α : Type} (f : Nat → Option α) : Nat → Option α
  | 0 => f 0
  | n + 1 => match f (n + 1) with
    | some x => some x
    | none => tryDown f n

/-- Match the whole of `s` (`^…$`), returning the contents of the groups of the match of highest
    priority (`FindStringSubmatch`). -/
def reRun : List ReItem → Bytes → Option (List Bytes)
  | [], s => if s = [] then some [] else none
  | .one p :: r, s => match s with
    | c :: cs => if p c then reRun r cs else none
    | [] => none
  | .opt p :: r, s => match s with
    | c :: cs => if p c then
        (match reRun r cs with
        | some x => some x
        | none => reRun r (c :: cs))
      else reRun r (c :: cs)
    | [] => reRun r []
  | .star p :: r, s => tryDown (fun k => reRun r (s.drop k)) (s.takeWhile p).length
  | .grp p :: r, s =>
    tryDown (fun k => if k = 0 then none else (reRun r (s.drop k)).map (s.take k :: ·)) (s.takeWhile p).length

/-- `[\(\[]`. -/
def isOpen (c : UInt8) : Bool := c = 40 || c = 91
/-- `[\]\)]`. -/
def isClose (c : UInt8) : Bool := c = 41 || c = 93
/-- `[^,\s]`. -/
def notCommaSp (c : UInt8) : Bool := !(c = 44 || isSpace c)
/-- `[^\]\)\s]`. -/
def notCloseSp (c : UInt8) : Bool := !(isClose c || isSpace c)
/-- `,`. -/
def isComma (c : UInt8) : Bool := c = 44
/-- `\-`. -/
def isMinus (c : UInt8) : Bool := c = 45

/-- The second half of `mbbRE`, from the `\-` in the middle on, cmd/stldice/stldice.go:33. -/
def mbbTail : List ReItem := [
  .one isMinus, .star isSpace, .opt isOpen, .star isSpace, .grp notCommaSp, .star isSpace, .one isComma,
  .star isSpace, .grp notCommaSp, .star isSpace, .one isComma, .star isSpace, .grp notCloseSp,
  .star isSpace, .opt isClose, .star isSpace]

/-- `mbbRE`, cmd/stldice/stldice.go:33, cmd/binvox-dice/binvox-dice.go:36. -/
def mbbRE : List ReItem := [
  .star isSpace, .opt isOpen, .star isSpace, .grp notCommaSp, .star isSpace, .one isComma,
  .star isSpace, .grp notCommaSp, .star isSpace, .one isComma, .star isSpace, .grp notCloseSp,
  .star isSpace, .opt isClose, .star isSpace] ++ mbbTail

/-- `parseMBB`, cmd/stldice/stldice.go:193-218 (and cmd/binvox-dice/binvox-dice.go:51-78); `none` is
    an error, the message is not modelled. -/
def parseMBB {F : Type} [FloatText F] (s : Bytes) : Option (BinVOX.Box F) :=
  match reRun mbbRE s with
  | some [p1, p2, p3, p4, p5, p6] =>
    match FloatText.parseFloat p1, FloatText.parseFloat p2, FloatText.parseFloat p3,
      FloatText.parseFloat p4, FloatText.parseFloat p5, FloatText.parseFloat p6 with
    | some x1, some y1, some z1, some x2, some y2, some z2 => some ⟨⟨x1, y1, z1⟩, ⟨x2, y2, z2⟩⟩
    | _, _, _, _, _, _ => none
  | _ => none

/-- The text of the box that `stldice` logs, cmd/stldice/stldice.go:76; `fmtV` is `%v` of a float. -/
def mbbText {F : Type} (fmtV : F → Bytes) (b : BinVOX.Box F) : Bytes :=
  ascii "(" ++ fmtV b.Min.X ++ ascii "," ++ fmtV b.Min.Y ++ ascii "," ++ fmtV b.Min.Z ++ ascii ")-(" ++
    fmtV b.Max.X ++ ascii "," ++ fmtV b.Max.Y ++ ascii "," ++ fmtV b.Max.Z ++ ascii ")"

end StlDice
