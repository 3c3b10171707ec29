import Verif.Model.Voxelize
import Verif.Model.Master

/-!
# cmd/stl2svx: the goroutine that writes the manifest and the main goroutine

`generateMR(.., true)` calls `wg.Done()` before it writes the manifest
(cmd/stl2svx/stl2svx.go:178-197), so `main` continues while the goroutine still sets the global variable
`zipFile` and writes the first entry.  Both sides use one `zip.Writer` without a lock.  Modelled: the
order of their calls (each call is one step); not modelled: a data race inside a call.
-/

namespace StlDice

/-- The calls on `zipFile`. -/
inductive ZEv
  /-- `zipFile = zip.NewWriter(f)`, cmd/stl2svx/stl2svx.go:360 -/
  | gNew
  /-- `zipFile.Create("manifest.xml")`, cmd/stl2svx/stl2svx.go:362 -/
  | gCreate
  /-- `fmt.Fprint(mf, buf)`, cmd/stl2svx/stl2svx.go:367 -/
  | gWrite
  /-- `zipFile.Create(fn)` for an image, cmd/stl2svx/stl2svx.go:89 and 326 -/
  | mCreate (name : Bytes)
  /-- `png.Encode(f, img)`, cmd/stl2svx/stl2svx.go:94 and 331 -/
  | mWrite
  /-- `zipFile.Close()`, cmd/stl2svx/stl2svx.go:71 -/
  | mClose
deriving DecidableEq

/-- `zipFile` and what has been written: the entries with their names and whether their contents
    arrived; `final` is the directory of the archive when it was closed. -/
structure ZState where
  opened : Bool
  entries : List (Bytes × Bool)
  final : Option (List (Bytes × Bool))
deriving DecidableEq

/-- Before anything happened: `zipFile` is nil. -/
def ZState.init : ZState := ⟨false, [], none⟩

/-- Writing to the entry most recently created if `own` accepts its name (archive/zip: creating an entry
    closes the one before, writing to a closed entry is an error, which is only logged). -/
def fillLast (own : Bytes → Bool) : List (Bytes × Bool) → List (Bytes × Bool)
  | [] => []
  | [e] => if own e.1 then [(e.1, true)] else [e]
  | e :: e' :: es => e :: fillLast own (e' :: es)

/-- One call; `none` is the panic of a method call on the nil writer. -/
def zStep (s : ZState) (e : ZEv) : Option ZState :=
  match e with
  | .gNew => some { s with opened := true }
  | .gCreate => if s.opened then some { s with entries := s.entries ++ [(ascii "manifest.xml", false)] } else none
  | .gWrite => if s.opened then some { s with entries := fillLast (fun n => n = ascii "manifest.xml") s.entries } else none
  | .mCreate n => if s.opened then some { s with entries := s.entries ++ [(n, false)] } else none
  | .mWrite => if s.opened then some { s with entries := fillLast (fun n => n ≠ ascii "manifest.xml") s.entries } else none
  | .mClose =>
    if s.opened then some { s with final := match s.final with | none => some s.entries | some f => some f }
    else none

/-- A sequence of calls. -/
def zRun (s : ZState) : List ZEv → Option ZState
  | [] => some s
  | e :: es => match zStep s e with
    | none => none
    | some s' => zRun s' es

/-- The goroutine: nothing if the output file cannot be created (cmd/stl2svx/stl2svx.go:352-356). -/
def manifestEvents (created : Bool) : List ZEv := if created then [.gNew, .gCreate, .gWrite] else []

/-- The main goroutine: the images `names` (none if `-stl` is not given), then `Close`,
    cmd/stl2svx/stl2svx.go:66-105. -/
def mainEvents (names : List Bytes) : List ZEv :=
  (names.flatMap fun n => [.mCreate n, .mWrite]) ++ [.mClose]

/-- A run of `stl2svx` in some order of the calls. -/
def CliRun (created : Bool) (names : List Bytes) (evs : List ZEv) (res : Option ZState) : Prop :=
  Interleave [manifestEvents created, mainEvents names] evs ∧ res = zRun .init evs

/-- The images of a job with `dimZ` slices, cmd/stl2svx/stl2svx.go:98-104. -/
def cliNames (dim nx ny nz : Int) (dimZ : Nat) : List Bytes :=
  (List.range (dimZ + 2)).map fun k => sliceName dim nx ny nz (k : Nat)

end StlDice
