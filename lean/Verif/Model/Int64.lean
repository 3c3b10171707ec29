import Verif.Model.VShellIO

/-! # Reading and writing files with 64-bit integers

`BinVOX.read`, `BinVOX.write`, `VShell.read` and `VShell.write` of BinVoxIO.lean and VShellIO.lean compute with
unbounded integers.  Here every addition of Go `int`s and `int64`s wraps around as on a 64-bit machine.  (The header
lines need no arithmetic beyond the range check of `strconv.Atoi`, which is in `atoi`.)  The loop counters `i` of
binvox/read.go:151 and vshell/read.go:158 run to at most 65535 and are left out. -/

namespace StlDice
variable {F : Type}

/-- The value of a 64-bit two's complement integer whose exact value would be `x`. -/
def wrap64 (x : Int) : Int := Int.bmod x 18446744073709551616

/-- binvox/read.go:155, vshell/read.go:162 with `sx+cx`, `sy+cy`, `sz+cz` in 64 bits. -/
def inRegion64 (r : Region) (h : Header F) (c : Cursor) : Bool :=
  let cx := clampCount r.cx h.nx
  let cy := clampCount r.cy h.ny
  let cz := clampCount r.cz h.nz
  c.xi ≥ r.sx && c.xi ≤ wrap64 (r.sx + cx) && c.yi ≥ r.sy && c.yi ≤ wrap64 (r.sy + cy) &&
    c.zi ≥ r.sz && c.zi ≤ wrap64 (r.sz + cz)

/-- binvox/read.go:158-166, vshell/read.go:165-173 in 64 bits. -/
def Cursor.next64 (c : Cursor) (ny nz : Int) : Cursor :=
  let yi := wrap64 (c.yi + 1)
  if yi ≥ ny then
    let zi := wrap64 (c.zi + 1)
    if zi ≥ nz then ⟨wrap64 (c.xi + 1), 0, 0⟩ else ⟨c.xi, 0, zi⟩
  else ⟨c.xi, yi, c.zi⟩

/-- binvox/read.go:151-167 in 64 bits. -/
def readRun64 (r : Region) (h : Header F) (value : UInt8) :
    Nat → Cursor → WhiteVoxelMap → Option (Cursor × WhiteVoxelMap)
  | 0, c, m => some (c, m)
  | n + 1, c, m =>
    if c.xi ≥ h.nx then none
    else
      let m := if value = 1 && inRegion64 r h c then m.set ⟨c.xi, c.yi, c.zi⟩ () else m
      readRun64 r h value n (c.next64 h.ny h.nz) m

/-- binvox/read.go:130-168 in 64 bits. -/
def readData64 (r : Region) (h : Header F) (clean : Bool) :
    Bytes → Cursor → WhiteVoxelMap → Option WhiteVoxelMap
  | [], _, m => if clean then some m else none
  | [_], _, _ => none
  | value :: count :: rest, c, m =>
    if value ≠ 0 ∧ value ≠ 1 then none
    else if count = 0 then none
    else match readRun64 r h value count.toNat c m with
      | none => none
      | some (c, m) => readData64 r h clean rest c m

/-- `read`, binvox/read.go:37-176, in 64 bits. -/
def BinVOX.read64 [FloatText F] (inp : Input) (r : Region) : Option (BinVOX F) :=
  if !r.nonneg then none
  else match readHeader (F := F) binvoxMagic r inp.bytes with
    | none => none
    | some (h, rest) =>
      match readData64 r h inp.clean rest ⟨0, 0, 0⟩ [] with
      | none => none
      | some m => some
          { NX := h.nx, NY := h.ny, NZ := h.nz, TX := h.tx, TY := h.ty, TZ := h.tz,
            Scale := h.scale, WhiteVoxels := some m, ColorVoxels := none }

/-- vshell/read.go:158-174 in 64 bits. -/
def vshReadRun64 (r : Region) (h : Header F) (value : BitVec 32) :
    Nat → Cursor → List VShVoxel → Option (Cursor × List VShVoxel)
  | 0, c, vs => some (c, vs)
  | n + 1, c, vs =>
    if c.xi ≥ h.nx then none
    else
      let vs := if !isSpecial value && inRegion64 r h c then vs ++ [⟨c.xi, c.yi, c.zi, value⟩] else vs
      vshReadRun64 r h value n (c.next64 h.ny h.nz) vs

/-- vshell/read.go:131-175 in 64 bits. -/
def vshReadData64 (r : Region) (h : Header F) (clean : Bool) (bs : Bytes) (c : Cursor)
    (vs : List VShVoxel) : Option (List VShVoxel) :=
  match hn : vshNext clean bs with
  | .eof => some vs
  | .bad => none
  | .record value count rest =>
    match vshReadRun64 r h value count c vs with
    | none => none
    | some (c, vs) => vshReadData64 r h clean rest c vs
termination_by bs.length
decreasing_by exact vshNext_length hn

/-- `read`, vshell/read.go:38-183, in 64 bits. -/
def VShell.read64 [FloatText F] (inp : Input) (r : Region) : Option (VShell F) :=
  if !r.nonneg then none
  else match readHeader (F := F) vshMagic r inp.bytes with
    | none => none
    | some (h, rest) =>
      match vshReadData64 r h inp.clean rest ⟨0, 0, 0⟩ [] with
      | none => none
      | some vs => some
          { NX := h.nx, NY := h.ny, NZ := h.nz, TX := h.tx, TY := h.ty, TZ := h.tz,
            Scale := h.scale, Voxels := vs }

/-- The values of `i` in `for i := a; i < a+n; i++` in 64 bits: from `a` up to the wrapped bound.  (`i++` cannot wrap, `i` is
    below the bound.) -/
def intRange64 (a n : Int) : List Int := intRange a (wrap64 (a + n) - a)

/-- binvox/write.go:96-99, vshell/write.go:116-119 in 64 bits. -/
def cells64 (r : Region) : List Key :=
  (intRange64 r.sx r.cx).flatMap fun xi =>
    (intRange64 r.sz r.cz).flatMap fun zi =>
      (intRange64 r.sy r.cy).map fun yi => ⟨xi, yi, zi⟩

/-- State of `encode` with the count as an int64. -/
structure EncState64 where
  value : UInt8
  count : Int
  sent : List (UInt8 × Int)

/-- binvox/write.go:99-116 in 64 bits. -/
def encodeStep64 (lookup : WhiteVoxelMap) (s : EncState64) (k : Key) : EncState64 :=
  let newValue : UInt8 := if lookup.has k then 1 else 0
  if newValue ≠ s.value then
    { value := newValue, count := 1,
      sent := if s.count > 0 then s.sent ++ [(s.value, s.count)] else s.sent }
  else { s with count := wrap64 (s.count + 1) }

/-- `encode`, binvox/write.go:93-124, in 64 bits. -/
def encodeRuns64 (lookup : WhiteVoxelMap) (r : Region) : List (UInt8 × Int) :=
  let s := (cells64 r).foldl (encodeStep64 lookup) ⟨0, 0, []⟩
  if s.count > 0 then s.sent ++ [(s.value, s.count)] else s.sent

/-- binvox/write.go:69-78 for an int64 count; `/` and `%` of Go truncate. -/
def runBytes64 (run : UInt8 × Int) : Bytes :=
  (if run.2.tdiv 255 > 0 then (List.replicate (run.2.tdiv 255).toNat [run.1, (255 : UInt8)]).flatten else []) ++
    (if run.2.tmod 255 > 0 then [run.1, UInt8.ofNat (run.2.tmod 255).toNat] else [])

/-- `write`, binvox/write.go:40-85, in 64 bits; `numWhite += v.count` wraps too. -/
def BinVOX.write64 [FloatText F] (b : BinVOX F) (w : Sink) (r : Region) : Sink × Option Int :=
  if b.white.length = 0 then
    ((w.write (headerBytes binvoxMagic 0 0 0 b.TX b.TY b.TZ b.Scale)).1, some 0)
  else
    let r := writeRegion b.NX b.NY b.NZ r
    let w := (w.write (headerBytes binvoxMagic r.cx r.cy r.cz b.TX b.TY b.TZ b.Scale)).1
    let runs := encodeRuns64 b.white r
    let numWhite := runs.foldl (fun n v => if v.1 = 1 then wrap64 (n + v.2) else n) 0
    let (w, ok) := w.write (runs.flatMap runBytes64)
    if ok then (w, some numWhite) else (w, none)

/-- `encode`, vshell/write.go:113-140, in 64 bits (its counts are uint16 and wrap in `vEncodeStep` already). -/
def vEncodeRuns64 (vs : List VShVoxel) (lookup : GoMap Key Nat) (r : Region) : List (BitVec 32 × Nat) :=
  ((cells64 r).foldl (fun s k => vEncodeStep s (vshValue vs lookup k)) ⟨0#32, 0, []⟩).finish

/-- `write`, vshell/write.go:39-105, in 64 bits. -/
def VShell.write64 [FloatText F] (b : VShell F) (w : Sink) (r : Region) : Sink × Option Int :=
  if b.Voxels.length = 0 then
    ((w.write (headerBytes vshMagic 0 0 0 b.TX b.TY b.TZ b.Scale)).1, some 0)
  else
    let r := writeRegion b.NX b.NY b.NZ r
    let w := (w.write (headerBytes vshMagic r.cx r.cy r.cz b.TX b.TY b.TZ b.Scale)).1
    let runs := vEncodeRuns64 b.Voxels (vshLookup b.Voxels) r
    let numVoxels := runs.foldl (fun n v => if isSpecial v.1 then n else wrap64 (n + (v.2 : Int))) 0
    let res := w.writeAll (runs.flatMap vRunCalls)
    (res.1, if res.2 then some numVoxels else none)

end StlDice
