import Verif.Model.VShell
import Verif.Model.Chan

/-! # Reading and writing vsh files: vshell/read.go, vshell/write.go -/

namespace StlDice
variable {F : Type}

/-- `binary.Write(w, binary.LittleEndian, v)` for a uint32; also the four bytes of
    vshell/write.go:82-85 and 93-96. -/
def le32 (v : BitVec 32) : Bytes :=
  [UInt8.ofNat (v.toNat % 256), UInt8.ofNat (v.toNat / 256 % 256),
   UInt8.ofNat (v.toNat / 65536 % 256), UInt8.ofNat (v.toNat / 16777216 % 256)]

/-- `binary.Write(w, binary.LittleEndian, n)` for a uint16. -/
def le16 (n : Nat) : Bytes := [UInt8.ofNat (n % 256), UInt8.ofNat (n / 256 % 256)]

/-- `binary.Read(b, binary.LittleEndian, &value)` for a uint32. -/
def fromLe32 (a b c d : UInt8) : BitVec 32 :=
  BitVec.ofNat 32 (a.toNat + 256 * b.toNat + 65536 * c.toNat + 16777216 * d.toNat)

/-- `binary.Read(b, binary.LittleEndian, &count)` for a uint16. -/
def fromLe16 (a b : UInt8) : Nat := a.toNat + 256 * b.toNat

/-- The test `value == 0 || value == 0xffffffff`, vshell/read.go:141, write.go:70. -/
def isSpecial (v : BitVec 32) : Bool := v = 0#32 || v = 0xffffffff#32

/-- Result of reading one record. -/
inductive VshRec where
  | eof
  | bad
  | record (value : BitVec 32) (count : Nat) (rest : Bytes)

/-- One record, vshell/read.go:132-154: `eof` is the `break` on a clean end, `bad` any error
    (incomplete value, incomplete count, zero byte count, read error). -/
def vshNext (clean : Bool) (bs : Bytes) : VshRec :=
  match bs with
  | [] => if clean then .eof else .bad
  | a :: b :: c :: d :: rest =>
    if isSpecial (fromLe32 a b c d) then
      match rest with
      | lo :: hi :: rest => .record (fromLe32 a b c d) (fromLe16 lo hi) rest
      | _ => .bad
    else
      match rest with
      | n :: rest => if n = 0 then .bad else .record (fromLe32 a b c d) n.toNat rest
      | [] => .bad
  | _ => .bad

/-- The inner loop vshell/read.go:158-174 for one run; `none` is the overrun error. -/
def vshReadRun (r : Region) (h : Header F) (value : BitVec 32) :
    Nat → Cursor → List VShVoxel → Option (Cursor × List VShVoxel)
  | 0, c, vs => some (c, vs)
  | n + 1, c, vs =>
    if c.xi ≥ h.nx then none
    else
      let vs := if !isSpecial value && inRegion r h c then vs ++ [⟨c.xi, c.yi, c.zi, value⟩] else vs
      vshReadRun r h value n (c.next h.ny h.nz) vs

theorem vshNext_length {clean : Bool} {bs : Bytes} {v : BitVec 32} {n : Nat} {rest : Bytes}
    (h : vshNext clean bs = .record v n rest) : rest.length < bs.length := by
  unfold vshNext at h
  split at h
  · split at h <;> cases h
  · split at h
    · split at h
      · cases h; simp; omega
      · cases h
    · split at h
      · split at h
        · cases h
        · cases h; simp; omega
      · cases h
  · cases h

/-- The data loop vshell/read.go:131-175. -/
def vshReadData (r : Region) (h : Header F) (clean : Bool) (bs : Bytes) (c : Cursor)
    (vs : List VShVoxel) : Option (List VShVoxel) :=
  match hn : vshNext clean bs with
  | .eof => some vs
  | .bad => none
  | .record value count rest =>
    match vshReadRun r h value count c vs with
    | none => none
    | some (c, vs) => vshReadData r h clean rest c vs
termination_by bs.length
decreasing_by exact vshNext_length hn

/-- The magic line of vsh files, vshell/read.go:48, write.go:32. -/
def vshMagic : Bytes := ascii "#vshell 1\n"

/-- `read`, vshell/read.go:38-183. -/
def VShell.read [FloatText F] (inp : Input) (r : Region) : Option (VShell F) :=
  if !r.nonneg then none
  else match readHeader (F := F) vshMagic r inp.bytes with
    | none => none
    | some (h, rest) =>
      match vshReadData r h inp.clean rest ⟨0, 0, 0⟩ [] with
      | none => none
      | some vs => some
          { NX := h.nx, NY := h.ny, NZ := h.nz, TX := h.tx, TY := h.ty, TZ := h.tz,
            Scale := h.scale, Voxels := vs }

/-- The lookup table key → index of vshell/write.go:56-59 (later entries overwrite earlier ones). -/
def vshLookup (vs : List VShVoxel) : GoMap Key Nat :=
  vs.zipIdx.foldl (fun m e => m.set e.1.key e.2) []

/-- `newValue` of vshell/write.go:120-123.  (The index is always in range.) -/
def vshValue (vs : List VShVoxel) (lookup : GoMap Key Nat) (k : Key) : BitVec 32 :=
  match lookup.get k with
  | none => 0#32
  | some i => match vs[i]? with
    | some v => v.N
    | none => 0#32

/-- Locals of `encode` and the runs sent so far. `count` is a uint16: always below 65536. -/
structure VEncState where
  value : BitVec 32
  count : Nat
  sent : List (BitVec 32 × Nat)

/-- Loop body vshell/write.go:119-133 with the value of the cell; `count++` wraps at 65536. -/
def vEncodeStep (s : VEncState) (newValue : BitVec 32) : VEncState :=
  if newValue ≠ s.value then
    { value := newValue, count := 1,
      sent := if s.count > 0 then s.sent ++ [(s.value, s.count)] else s.sent }
  else { s with count := (s.count + 1) % 65536 }

/-- vshell/write.go:136-138: the last send. -/
def VEncState.finish (s : VEncState) : List (BitVec 32 × Nat) :=
  if s.count > 0 then s.sent ++ [(s.value, s.count)] else s.sent

/-- `encode`, vshell/write.go:113-140: the runs sent before `close(ch)`. -/
def vEncodeRuns (vs : List VShVoxel) (lookup : GoMap Key Nat) (r : Region) :
    List (BitVec 32 × Nat) :=
  ((cells r).foldl (fun s k => vEncodeStep s (vshValue vs lookup k)) ⟨0#32, 0, []⟩).finish

/-- The `Write` calls made for one run, vshell/write.go:69-102. -/
def vRunCalls (run : BitVec 32 × Nat) : List Bytes :=
  if isSpecial run.1 then [le32 run.1, le16 run.2]
  else
    (if run.2 / 255 > 0 then [(List.replicate (run.2 / 255) (le32 run.1 ++ [255])).flatten] else []) ++
    (if run.2 % 255 > 0 then [le32 run.1 ++ [UInt8.ofNat (run.2 % 255)]] else [])

/-- A sequence of `Write` calls, stopped by the first error. -/
def Sink.writeAll (w : Sink) : List Bytes → Sink × Bool
  | [] => (w, true)
  | bs :: l =>
    match w.write bs with
    | (w, true) => w.writeAll l
    | (w, false) => (w, false)

/-- `write`, vshell/write.go:39-105: the writer afterwards and the returned count (`none` = error).
    Errors of the header `Fprintf`/`Fprint` (lines 41, 63) are ignored by the code. -/
def VShell.write [FloatText F] (b : VShell F) (w : Sink) (r : Region) : Sink × Option Int :=
  if b.Voxels.length = 0 then
    ((w.write (headerBytes vshMagic 0 0 0 b.TX b.TY b.TZ b.Scale)).1, some 0)
  else
    let r := writeRegion b.NX b.NY b.NZ r
    let w := (w.write (headerBytes vshMagic r.cx r.cy r.cz b.TX b.TY b.TZ b.Scale)).1
    let runs := vEncodeRuns b.Voxels (vshLookup b.Voxels) r
    let numVoxels := (runs.map (fun v => if isSpecial v.1 then 0 else (v.2 : Int))).sum
    let res := w.writeAll (runs.flatMap vRunCalls)
    (res.1, if res.2 then some numVoxels else none)

/-- `Write`, vshell/write.go:15-30. -/
def VShell.Write [FloatText F] (b : VShell F) (env : FileEnv) (r : Region) : Option Bytes × Bool :=
  if !env.createOk then (none, false)
  else
    let res := b.write ⟨[], env.plan⟩ r
    match res.2 with
    | none => (some res.1.out, false)
    | some _ => (some res.1.out, env.closeOk)

/-- `Read`, vshell/read.go:23-36. -/
def VShell.Read [FloatText F] (file : Option Input) (r : Region) : Option (VShell F) :=
  match file with
  | none => none
  | some inp => VShell.read inp r

/-- `encode` as the producer goroutine of the channel, vshell/write.go:65-68, 113-140. -/
def vshEncoder (vs : List VShVoxel) (lookup : GoMap Key Nat) :
    Producer (BitVec 32 × Nat) Key (BitVec 32 × Nat) where
  step s k :=
    let newValue := vshValue vs lookup k
    if newValue ≠ s.1 then ((newValue, 1), if s.2 > 0 then some s else none)
    else ((s.1, (s.2 + 1) % 65536), none)
  finish s := if s.2 > 0 then some s else none

end StlDice
