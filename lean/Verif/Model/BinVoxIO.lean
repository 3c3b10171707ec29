import Verif.Model.BinVox
import Verif.Model.Text

/-! # Reading and writing binvox files: binvox/read.go, binvox/write.go -/

namespace StlDice
variable {F : Type}

/-- Header fields of a binvox / vshell file. -/
structure Header (F : Type) where
  nx : Int
  ny : Int
  nz : Int
  tx : F
  ty : F
  tz : F
  scale : F
deriving DecidableEq, Repr

/-- Start and count parameters of `Read`/`Write`. -/
structure Region where
  sx : Int
  sy : Int
  sz : Int
  cx : Int
  cy : Int
  cz : Int
deriving DecidableEq, Repr

/-- The dimension line, binvox/read.go:51-70, vshell/read.go:52-71. -/
def readDimLine (s : Bytes) : Option ((Int × Int × Int) × Bytes) :=
  match readLine s with
  | none => none
  | some (dim, s) =>
    match matchDim dim with
    | none => none
    | some (a, b, c) =>
      match atoi a, atoi b, atoi c with
      | some nx, some ny, some nz => some ((nx, ny, nz), s)
      | _, _, _ => none

/-- The translate line, binvox/read.go:84-103, vshell/read.go:85-104. -/
def readTranslateLine [FloatText F] (s : Bytes) : Option ((F × F × F) × Bytes) :=
  match readLine s with
  | none => none
  | some (translate, s) =>
    match matchTranslate translate with
    | none => none
    | some (a, b, c) =>
      match FloatText.parseFloat (F := F) a, FloatText.parseFloat (F := F) b,
          FloatText.parseFloat (F := F) c with
      | some tx, some ty, some tz => some ((tx, ty, tz), s)
      | _, _, _ => none

/-- The scale line, binvox/read.go:105-116, vshell/read.go:106-117. -/
def readScaleLine [FloatText F] (s : Bytes) : Option (F × Bytes) :=
  match readLine s with
  | none => none
  | some (scaleLine, s) =>
    match matchScale scaleLine with
    | none => none
    | some a =>
      match FloatText.parseFloat (F := F) a with
      | none => none
      | some scale => some (scale, s)

/-- binvox/read.go:43-124 and vshell/read.go:44-125 (same text but for the magic line): the five
    header lines; returns the header and the rest of the input, `none` for any error.
    The start check (read.go:71-73) sits between the dimension and translate lines as in the code. -/
def readHeader [FloatText F] (magic : Bytes) (r : Region) (s : Bytes) :
    Option (Header F × Bytes) :=
  match readLine s with
  | none => none
  | some (header, s) =>
    if header ≠ magic then none
    else match readDimLine s with
      | none => none
      | some ((nx, ny, nz), s) =>
        if r.sx > nx ∨ r.sy > ny ∨ r.sz > nz then none
        else match readTranslateLine (F := F) s with
          | none => none
          | some ((tx, ty, tz), s) =>
            match readScaleLine (F := F) s with
            | none => none
            | some (scale, s) =>
              match readLine s with
              | none => none
              | some (data, s) =>
                if data ≠ ascii "data\n" then none
                else some (⟨nx, ny, nz, tx, ty, tz, scale⟩, s)

/-- binvox/read.go:38 (and vshell/read.go:39): parameter check. -/
def Region.nonneg (r : Region) : Bool :=
  !(r.sx < 0 || r.sy < 0 || r.sz < 0 || r.cx < 0 || r.cy < 0 || r.cz < 0)

/-- binvox/read.go:74-82: a count of 0, or one above the dimension, means the whole dimension. -/
def clampCount (c n : Int) : Int := if c = 0 ∨ c > n then n else c

/-- The loop variables `xi, yi, zi` of the decoder. -/
structure Cursor where
  xi : Int
  yi : Int
  zi : Int
deriving DecidableEq, Repr

/-- binvox/read.go:158-166 (vshell/read.go:165-173): y fastest, then z, then x. -/
def Cursor.next (c : Cursor) (ny nz : Int) : Cursor :=
  let yi := c.yi + 1
  if yi ≥ ny then
    let zi := c.zi + 1
    if zi ≥ nz then ⟨c.xi + 1, 0, 0⟩ else ⟨c.xi, 0, zi⟩
  else ⟨c.xi, yi, c.zi⟩

/-- The sub-region test of binvox/read.go:155 (vshell/read.go:162), with the clamped counts. -/
def inRegion (r : Region) (h : Header F) (c : Cursor) : Bool :=
  let cx := clampCount r.cx h.nx
  let cy := clampCount r.cy h.ny
  let cz := clampCount r.cz h.nz
  c.xi ≥ r.sx && c.xi ≤ r.sx + cx && c.yi ≥ r.sy && c.yi ≤ r.sy + cy &&
    c.zi ≥ r.sz && c.zi ≤ r.sz + cz

/-- The inner loop binvox/read.go:151-167 for one run; `none` is the overrun error. -/
def readRun (r : Region) (h : Header F) (value : UInt8) :
    Nat → Cursor → WhiteVoxelMap → Option (Cursor × WhiteVoxelMap)
  | 0, c, m => some (c, m)
  | n + 1, c, m =>
    if c.xi ≥ h.nx then none
    else
      let m := if value = 1 && inRegion r h c then m.set ⟨c.xi, c.yi, c.zi⟩ () else m
      readRun r h value n (c.next h.ny h.nz) m

/-- The data loop binvox/read.go:130-168. -/
def readData (r : Region) (h : Header F) (clean : Bool) :
    Bytes → Cursor → WhiteVoxelMap → Option WhiteVoxelMap
  | [], _, m => if clean then some m else none
  | [_], _, _ => none
  | value :: count :: rest, c, m =>
    if value ≠ 0 ∧ value ≠ 1 then none
    else if count = 0 then none
    else match readRun r h value count.toNat c m with
      | none => none
      | some (c, m) => readData r h clean rest c m

/-- The magic line of binvox files, binvox/read.go:47, write.go:33. -/
def binvoxMagic : Bytes := ascii "#binvox 1\n"

/-- `read`, binvox/read.go:37-176; `none` is an error (texts not modelled).
    Note: with a single byte value ≠ 0,1 left the code fails with "invalid value" and otherwise
    with "error reading count"; both are errors, hence the single case `[_]` above. -/
def BinVOX.read [FloatText F] (inp : Input) (r : Region) : Option (BinVOX F) :=
  if !r.nonneg then none
  else match readHeader (F := F) binvoxMagic r inp.bytes with
    | none => none
    | some (h, rest) =>
      match readData r h inp.clean rest ⟨0, 0, 0⟩ [] with
      | none => none
      | some m => some
          { NX := h.nx, NY := h.ny, NZ := h.nz, TX := h.tx, TY := h.ty, TZ := h.tz,
            Scale := h.scale, WhiteVoxels := some m, ColorVoxels := none }

/-- Integers `a, a+1, ..., a+n-1` (the loops `for i := a; i < a+n; i++`). -/
def intRange (a n : Int) : List Int := (List.range n.toNat).map (fun i : Nat => a + (i : Int))

/-- The order in which `encode` visits the cells, binvox/write.go:96-99, vshell/write.go:116-119. -/
def cells (r : Region) : List Key :=
  (intRange r.sx r.cx).flatMap fun xi =>
    (intRange r.sz r.cz).flatMap fun zi =>
      (intRange r.sy r.cy).map fun yi => ⟨xi, yi, zi⟩

/-- State of `encode`: current value and count, and the runs sent to the channel so far. -/
structure EncState where
  value : UInt8
  count : Nat
  sent : List (UInt8 × Nat)

/-- Loop body binvox/write.go:99-116; the colour test of lines 100-107 gives 1 for `gl.White` and
    0 for `gl.Black`. -/
def encodeStep (lookup : WhiteVoxelMap) (s : EncState) (k : Key) : EncState :=
  let newValue : UInt8 := if lookup.has k then 1 else 0
  if newValue ≠ s.value then
    { value := newValue, count := 1,
      sent := if s.count > 0 then s.sent ++ [(s.value, s.count)] else s.sent }
  else { s with count := s.count + 1 }

/-- `encode`, binvox/write.go:93-124: the sequence of runs sent before `close(ch)`. -/
def encodeRuns (lookup : WhiteVoxelMap) (r : Region) : List (UInt8 × Nat) :=
  let s := (cells r).foldl (encodeStep lookup) ⟨0, 0, []⟩
  if s.count > 0 then s.sent ++ [(s.value, s.count)] else s.sent

/-- Bytes buffered for one run, binvox/write.go:69-78. -/
def runBytes (run : UInt8 × Nat) : Bytes :=
  (List.replicate (run.2 / 255) [run.1, (255 : UInt8)]).flatten ++
    (if run.2 % 255 > 0 then [run.1, UInt8.ofNat (run.2 % 255)] else [])

/-- `headerFMT`, binvox/write.go:33-38, vshell/write.go:32-37. -/
def headerBytes [FloatText F] (magic : Bytes) (nx ny nz : Int) (tx ty tz scale : F) : Bytes :=
  magic ++
  (ascii "dim " ++ fmtInt nx ++ ascii " " ++ fmtInt ny ++ ascii " " ++ fmtInt nz ++ ascii "\n") ++
  (ascii "translate " ++ FloatText.fmtG tx ++ ascii " " ++ FloatText.fmtG ty ++ ascii " " ++
    FloatText.fmtG tz ++ ascii "\n") ++
  (ascii "scale " ++ FloatText.fmtG scale ++ ascii "\n") ++
  ascii "data\n"

/-- binvox/write.go:46-54: counts of 0 mean the dimension of the model. -/
def writeRegion (nx ny nz : Int) (r : Region) : Region :=
  { r with
    cx := if r.cx = 0 then nx else r.cx
    cy := if r.cy = 0 then ny else r.cy
    cz := if r.cz = 0 then nz else r.cz }

/-- `write`, binvox/write.go:40-85: the writer afterwards and the returned count
    (`none` = error).  Writes to the in-memory buffer cannot fail.  Errors of the header
    `Fprintf`/`Fprint` (lines 42, 58) are ignored by the code. -/
def BinVOX.write [FloatText F] (b : BinVOX F) (w : Sink) (r : Region) : Sink × Option Int :=
  if b.white.length = 0 then
    ((w.write (headerBytes binvoxMagic 0 0 0 b.TX b.TY b.TZ b.Scale)).1, some 0)
  else
    let r := writeRegion b.NX b.NY b.NZ r
    let w := (w.write (headerBytes binvoxMagic r.cx r.cy r.cz b.TX b.TY b.TZ b.Scale)).1
    let runs := encodeRuns b.white r
    let numWhite := (runs.map (fun v => if v.1 = 1 then (v.2 : Int) else 0)).sum
    let (w, ok) := w.write (runs.flatMap runBytes)
    if ok then (w, some numWhite) else (w, none)

/-- Outcome of the operating system calls around `write` in `Write`. -/
structure FileEnv where
  createOk : Bool
  plan : List WOut
  closeOk : Bool

/-- `Write`, binvox/write.go:16-31: the file content left on disk (`none` if never created) and
    whether a nil error was returned. -/
def BinVOX.Write [FloatText F] (b : BinVOX F) (env : FileEnv) (r : Region) : Option Bytes × Bool :=
  if !env.createOk then (none, false)
  else
    let (w, n) := b.write ⟨[], env.plan⟩ r
    match n with
    | none => (some w.out, false)
    | some _ => (some w.out, env.closeOk)

/-- `Read`, binvox/read.go:22-35, on a file system that has (or lacks) the file. -/
def BinVOX.Read [FloatText F] (file : Option Input) (r : Region) : Option (BinVOX F) :=
  match file with
  | none => none
  | some inp => BinVOX.read inp r

end StlDice
