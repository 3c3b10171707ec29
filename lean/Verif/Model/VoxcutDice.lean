import Verif.Model.Int64
import Verif.Model.Voxcut
import Verif.Model.Dice

/-! # voxcut-dice and binvox-dice: cmd/voxcut-dice/voxcut-dice.go, cmd/binvox-dice/binvox-dice.go -/

namespace StlDice
open GoFloat BinVOX

/-- `for i := start; i < n; i += size`, cmd/voxcut-dice/voxcut-dice.go:53-55, followed for `fuel`
    tests of the condition: the values of `i`, or `none` if the loop has not ended by then.  The addition is that of
    64-bit integers. -/
def stepLoop (n size : Int) : Nat → Int → Option (List Int)
  | 0, _ => none
  | fuel + 1, i => if i < n then (stepLoop n size fuel (wrap64 (i + size))).map (i :: ·) else some []

/-- The start corners of the tiles in the order of the nested loops,
    cmd/voxcut-dice/voxcut-dice.go:53-55; `none` if some loop does not end within `fuel` tests. -/
def diceStarts (fuel : Nat) (nx ny nz size : Int) : Option (List Key) :=
  match stepLoop nz size fuel 0 with
  | none => none
  | some [] => some []
  | some zs =>
    match stepLoop ny size fuel 0 with
    | none => none
    | some [] => some []
    | some ys =>
      match stepLoop nx size fuel 0 with
      | none => none
      | some xs =>
        some (zs.flatMap fun zi => ys.flatMap fun yi => xs.map fun xi => ⟨xi, yi, zi⟩)

/-- The output name for the tile starting at `t`, cmd/voxcut-dice/voxcut-dice.go:52, 60, 64, 68. -/
def cutName (pre ext : Bytes) (size : Int) (t : Key) : Bytes :=
  pre ++ ascii "-" ++ padInt 4 t.X ++ ascii "-" ++ padInt 4 t.Y ++ ascii "-" ++ padInt 4 t.Z ++
    ascii "-" ++ padInt 4 size ++ ascii "-" ++ padInt 4 size ++ ascii "-" ++ padInt 4 size ++ ext

/-- Flags of voxcut-dice. -/
structure CutDiceFlags where
  size : Int
  binvoxPrefix : Bytes
  stlPrefix : Bytes
  voxPrefix : Bytes
  files : List Bytes

/-- One output option, cmd/voxcut-dice/voxcut-dice.go:58-69. -/
def outOption (flag pre ext : Bytes) (size : Int) (t : Key) : List Bytes :=
  if pre ≠ [] then [flag, cutName pre ext size t] else []

/-- The argument vector for the tile starting at `t`, cmd/voxcut-dice/voxcut-dice.go:56-70. -/
def cutArgs (fl : CutDiceFlags) (t : Key) : List Bytes :=
  [ascii "voxcut", ascii "-sx", fmtInt t.X, ascii "-sy", fmtInt t.Y, ascii "-sz", fmtInt t.Z,
   ascii "-cx", fmtInt fl.size, ascii "-cy", fmtInt fl.size, ascii "-cz", fmtInt fl.size] ++
  outOption (ascii "-ovox") fl.voxPrefix (ascii ".vox") fl.size t ++
  outOption (ascii "-obinvox") fl.binvoxPrefix (ascii ".binvox") fl.size t ++
  outOption (ascii "-ostl") fl.stlPrefix (ascii ".stl") fl.size t ++
  fl.files

/-- The region these arguments select in voxcut, cmd/voxcut/voxcut.go:33-38, 58, 64. -/
def cutRegion (size : Int) (t : Key) : Region := ⟨t.X, t.Y, t.Z, size, size, size⟩

/-- What `main` of voxcut-dice ends up doing. -/
inductive CutDice where
  | fatal
  | endless
  | tiles (ts : List Key)

/-- `main` of voxcut-dice up to the execution of the commands, cmd/voxcut-dice/voxcut-dice.go:32-55:
    the start corners of the tiles it issues commands for.  `endless`: not finished within `fuel`
    loop tests. -/
def cutDice {F : Type} [FloatText F] (fuel : Nat) (fl : CutDiceFlags) (base : Option Input) : CutDice :=
  if fl.files.length < 1 then .fatal
  else if fl.binvoxPrefix = [] ∧ fl.stlPrefix = [] ∧ fl.voxPrefix = [] then .fatal
  else match BinVOX.Read (F := F) base ⟨0, 0, 0, 1, 1, 1⟩ with
    | none => .fatal
    | some b =>
      if fl.size > b.NX ∧ fl.size > b.NY ∧ fl.size > b.NZ then .fatal
      else match diceStarts fuel b.NX b.NY b.NZ fl.size with
        | none => .endless
        | some ts => .tiles ts

/-- Executing the commands one after the other, cmd/voxcut-dice/voxcut-dice.go:76-82: the tiles
    completed, and whether the end was reached; a command that fails (exit status ≠ 0, here a
    fatal exit of `voxcutMain`) stops the run with `log.Fatalf`. -/
def runTiles {F : Type} [GoFloat F] [FloatText F] (baseFile : Input) (cutFiles : List Input)
    (size : Int) : List Key → List (Key × Bytes) → List (Key × Bytes) × Bool
  | [], acc => (acc, true)
  | t :: ts, acc =>
    match voxcutMain (F := F) baseFile cutFiles (cutRegion size t) ⟨[], []⟩ with
    | none => (acc, false)
    | some w => runTiles (F := F) baseFile cutFiles size ts (acc ++ [(t, w.out)])

/-- `strings.Join(args, " ")`, cmd/voxcut-dice/voxcut-dice.go:73. -/
def joinSp : List Bytes → Bytes
  | [] => []
  | [a] => a
  | a :: b :: l => a ++ 32 :: joinSp (b :: l)

/-- `strings.Split(s, " ")`, cmd/voxcut-dice/voxcut-dice.go:57. -/
def splitSp : Bytes → List Bytes
  | [] => [[]]
  | c :: cs =>
    if c = 32 then [] :: splitSp cs
    else match splitSp cs with
      | [] => [[c]]
      | w :: ws => (c :: w) :: ws

/-- `gl.V(0, 0, a).Lerp(gl.V(0, 0, b), t).Z` (fauxgl: `a + (b-a)*t`, the sum of `a` and
    `b.Sub(a).MulScalar(t)`), cmd/binvox-dice/binvox-dice.go:104-112. -/
def lerpZ {F : Type} [GoFloat F] (a b t : F) : F := add a (mul (sub b a) t)

/-- One end of the `i`-th interval of `f`, cmd/binvox-dice/binvox-dice.go:104-112:
    `float64(i)/float64(f)`. -/
def cutAt {F : Type} [GoFloat F] (lo hi : F) (f i : Int) : F := lerpZ lo hi (div (ofInt i) (ofInt f))

/-- The number of subdivisions of an axis, cmd/binvox-dice/binvox-dice.go:84-95. -/
def subFactor (factor : Int) (sub : Bool) : Int := if sub then factor else 1

/-- One box of binvox-dice with the suffix of its files. -/
structure DiceBox (F : Type) where
  box : Box F
  suffix : Bytes

/-- `c`, cmd/binvox-dice/binvox-dice.go:119-122. -/
def cutSuffix (numCuts : Nat) : Bytes := if numCuts > 0 then ascii "_" ++ fmtInt numCuts else []

/-- The loops of binvox-dice, cmd/binvox-dice/binvox-dice.go:103-128: boxes and suffixes in order. -/
def binvoxDice {F : Type} [GoFloat F] (mbb : Box F) (xf yf zf : Int) : List (DiceBox F) :=
  (tileIndices xf yf zf).zipIdx.map fun p =>
    ⟨⟨⟨cutAt mbb.Min.X mbb.Max.X xf p.1.X, cutAt mbb.Min.Y mbb.Max.Y yf p.1.Y,
        cutAt mbb.Min.Z mbb.Max.Z zf p.1.Z⟩,
      ⟨cutAt mbb.Min.X mbb.Max.X xf (p.1.X + 1), cutAt mbb.Min.Y mbb.Max.Y yf (p.1.Y + 1),
        cutAt mbb.Min.Z mbb.Max.Z zf (p.1.Z + 1)⟩⟩, cutSuffix p.2⟩

end StlDice
