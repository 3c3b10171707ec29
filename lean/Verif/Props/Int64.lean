import Verif.Model.Int64
import Verif.Spec.Int64
import Verif.Props.BinVoxFile
import Verif.Lemmas.VData
import Mathlib.Tactic.Ring

/-! # C109: 64-bit integers in the file readers and writers -/

namespace StlDice
open Spec
variable {F : Type}

theorem boxEnd_eq (s c n : Int) : boxEnd s c n = s + clampCount c n := by
  unfold boxEnd clampCount
  split <;> rfl

theorem endsFit_iff (r : Region) (nx ny nz : Int) : EndsFit r nx ny nz ↔ r.sx + clampCount r.cx nx < 2 ^ 63 ∧
    r.sy + clampCount r.cy ny < 2 ^ 63 ∧ r.sz + clampCount r.cz nz < 2 ^ 63 := by
  unfold EndsFit
  rw [boxEnd_eq, boxEnd_eq, boxEnd_eq]

theorem wrap64_fits {x : Int} (h : Fits64 x) : wrap64 x = x := by
  obtain ⟨h1, h2⟩ := h
  unfold wrap64
  rw [Int.bmod_def]
  split <;> omega

theorem wrap64_over {x : Int} (h1 : 2 ^ 63 ≤ x) (h2 : x < 2 ^ 64) : wrap64 x = x - 2 ^ 64 := by
  unfold wrap64
  rw [Int.bmod_def]
  split <;> omega

/-- Where the decoder can be. -/
def Cursor.In (c : Cursor) (h : Header F) : Prop :=
  0 ≤ c.xi ∧ c.xi ≤ h.nx ∧ 0 ≤ c.yi ∧ c.yi < max h.ny 1 ∧ 0 ≤ c.zi ∧ c.zi < max h.nz 1

/-- Dimensions as they can stand in a header. -/
def Header.Small (h : Header F) : Prop :=
  (0 ≤ h.nx ∧ h.nx < 2 ^ 63) ∧ (0 ≤ h.ny ∧ h.ny < 2 ^ 63) ∧ (0 ≤ h.nz ∧ h.nz < 2 ^ 63)

theorem next64_eq {h : Header F} (hs : h.Small) {c : Cursor} (hc : c.In h) (hx : c.xi < h.nx) :
    c.next64 h.ny h.nz = c.next h.ny h.nz ∧ (c.next h.ny h.nz).In h := by
  obtain ⟨a1, a2, a3, a4, a5, a6⟩ := hc
  obtain ⟨b1, b2, b3⟩ := hs
  unfold Cursor.next64 Cursor.next
  have e1 : wrap64 (c.yi + 1) = c.yi + 1 := wrap64_fits ⟨by omega, by omega⟩
  have e2 : wrap64 (c.zi + 1) = c.zi + 1 := wrap64_fits ⟨by omega, by omega⟩
  have e3 : wrap64 (c.xi + 1) = c.xi + 1 := wrap64_fits ⟨by omega, by omega⟩
  simp only [e1, e2, e3, true_and]
  unfold Cursor.In
  split
  · split
    · refine ⟨?_, ?_, ?_, ?_, ?_, ?_⟩ <;> dsimp only <;> omega
    · refine ⟨?_, ?_, ?_, ?_, ?_, ?_⟩ <;> dsimp only <;> omega
  · refine ⟨?_, ?_, ?_, ?_, ?_, ?_⟩ <;> dsimp only <;> omega

theorem clamp_range {c n : Int} (hc : 0 ≤ c) (hn : 0 ≤ n) : 0 ≤ clampCount c n ∧ clampCount c n ≤ n := by
  unfold clampCount
  split <;> omega

theorem inRegion64_eq {h : Header F} (hs : h.Small) {r : Region} (hr : r.nonneg = true)
    (hd : r.sx ≤ h.nx ∧ r.sy ≤ h.ny ∧ r.sz ≤ h.nz) {c : Cursor} (hc : c.In h) :
    inRegion64 r h c = (inRegion r h c && decide (EndsFit r h.nx h.ny h.nz)) := by
  obtain ⟨a1, a2, a3, a4, a5, a6⟩ := hc
  obtain ⟨b1, b2, b3⟩ := hs
  simp only [Region.nonneg, Bool.not_eq_true', Bool.or_eq_false_iff, decide_eq_false_iff_not] at hr
  obtain ⟨⟨⟨⟨⟨r1, r2⟩, r3⟩, r4⟩, r5⟩, r6⟩ := hr
  obtain ⟨x1, x2⟩ := clamp_range (c := r.cx) (n := h.nx) (by omega) b1.1
  obtain ⟨y1, y2⟩ := clamp_range (c := r.cy) (n := h.ny) (by omega) b2.1
  obtain ⟨z1, z2⟩ := clamp_range (c := r.cz) (n := h.nz) (by omega) b3.1
  rw [Bool.eq_iff_iff]
  simp only [inRegion64, inRegion, Bool.and_eq_true, decide_eq_true_eq]
  rw [endsFit_iff]
  generalize clampCount r.cx h.nx = p at *
  generalize clampCount r.cy h.ny = q at *
  generalize clampCount r.cz h.nz = s at *
  have key : ∀ {i a b : Int}, 0 ≤ i → 0 ≤ a + b → a + b < 2 ^ 64 → (i ≤ wrap64 (a + b) ↔ i ≤ a + b ∧ a + b < 2 ^ 63) := by
    intro i a b h0 h1 h2
    by_cases hb : a + b < 2 ^ 63
    · rw [wrap64_fits ⟨by omega, hb⟩]; exact ⟨fun e => ⟨e, hb⟩, fun e => e.1⟩
    · rw [wrap64_over (by omega) h2]
      constructor
      · intro hh; omega
      · intro hh; exact absurd hh.2 hb
  rw [key a1 (by omega) (by omega), key a3 (by omega) (by omega), key a5 (by omega) (by omega)]
  tauto

/-- What is added to a map by a run, if the region test is always false: nothing. -/
theorem readRun64_eq {h : Header F} (hs : h.Small) {r : Region} (hr : r.nonneg = true)
    (hd : r.sx ≤ h.nx ∧ r.sy ≤ h.ny ∧ r.sz ≤ h.nz) (v : UInt8) (n : Nat) :
    ∀ {c : Cursor}, c.In h → ∀ m : WhiteVoxelMap, (EndsFit r h.nx h.ny h.nz → readRun64 r h v n c m = readRun r h v n c m) ∧
      (¬ EndsFit r h.nx h.ny h.nz → ∀ m', readRun64 r h v n c m = (readRun r h v n c m').map fun p => (p.1, m)) ∧
      ∀ c' m', readRun r h v n c m = some (c', m') → c'.In h := by
  induction n with
  | zero =>
    intro c hc m
    refine ⟨fun _ => rfl, fun _ _ => rfl, ?_⟩
    intro c' m' he
    simp only [readRun, Option.some.injEq, Prod.mk.injEq] at he
    rw [← he.1]; exact hc
  | succ n ih =>
    intro c hc m
    simp only [readRun64, readRun]
    by_cases hx : c.xi ≥ h.nx
    · simp [hx]
    · simp only [hx, if_false]
      obtain ⟨e, hin⟩ := next64_eq hs hc (by omega)
      rw [e, inRegion64_eq hs hr hd hc]
      refine ⟨fun hf => ?_, fun hf m' => ?_, fun c' m' he => (ih hin _).2.2 c' m' he⟩
      · simp only [hf, decide_true, Bool.and_true]
        exact (ih hin _).1 hf
      · simp only [hf, decide_false, Bool.and_false, Bool.false_eq_true, if_false]
        exact (ih hin m).2.1 hf _

theorem readData64_eq {h : Header F} (hs : h.Small) {r : Region} (hr : r.nonneg = true)
    (hd : r.sx ≤ h.nx ∧ r.sy ≤ h.ny ∧ r.sz ≤ h.nz) (clean : Bool) (bs : Bytes) (c : Cursor) (hc : c.In h) (m : WhiteVoxelMap) :
    (EndsFit r h.nx h.ny h.nz → readData64 r h clean bs c m = readData r h clean bs c m) ∧
    (¬ EndsFit r h.nx h.ny h.nz → ∀ m', readData64 r h clean bs c m = (readData r h clean bs c m').map fun _ => m) := by
  induction bs using List.twoStepInduction generalizing c m with
  | nil => refine ⟨fun _ => rfl, fun _ m' => ?_⟩; simp only [readData64, readData]; split <;> rfl
  | singleton => exact ⟨fun _ => rfl, fun _ _ => rfl⟩
  | cons_cons v n rest ih _ =>
    simp only [readData64, readData]
    split
    · simp
    split
    · simp
    obtain ⟨h1, h2, h3⟩ := readRun64_eq hs hr hd v n.toNat hc m
    refine ⟨fun hf => ?_, fun hf m' => ?_⟩
    · rw [h1 hf]
      cases he : readRun r h v n.toNat c m with
      | none => rfl
      | some p => exact (ih p.1 (h3 _ _ he) p.2).1 hf
    · rw [h2 hf m']
      cases he : readRun r h v n.toNat c m' with
      | none => rfl
      | some p => exact (ih p.1 ((readRun64_eq hs hr hd v n.toNat hc m').2.2 _ _ he) m).2 hf p.2

theorem isNumber_range {ds : Bytes} {n : Int} (h : IsNumber ds n) : 0 ≤ n ∧ n < 2 ^ 63 := by
  obtain ⟨m, -, rfl, h⟩ := h
  exact ⟨by omega, by exact_mod_cast h⟩

theorem header_small [FloatText F] {magic : Bytes} {r : Region} {s rest : Bytes} {h : Header F}
    (hh : readHeader magic r s = some (h, rest)) :
    h.Small ∧ (r.sx ≤ h.nx ∧ r.sy ≤ h.ny ∧ r.sz ≤ h.nz) := by
  obtain ⟨⟨hb, -, d, t, e, -, ⟨a, b, c, f, -, ha, hb, hc, -⟩, -, -⟩, hd⟩ := isHeader_of hh
  exact ⟨⟨isNumber_range ha, isNumber_range hb, isNumber_range hc⟩, hd⟩

theorem start_in {h : Header F} (hs : h.Small) : Cursor.In ⟨0, 0, 0⟩ h := by
  obtain ⟨a, b, c⟩ := hs
  unfold Cursor.In
  dsimp only
  omega

/-- **C109.** Reading a binvox file with 64-bit integers, for every file and all parameters: as with unbounded integers,
    except that no voxels are returned, without an error, when an upper end of the box to read is not a 64-bit integer. -/
theorem read64_eq [FloatText F] (inp : Input) (r : Region) :
    BinVOX.read64 (F := F) inp r = (BinVOX.read inp r).map fun b =>
      if EndsFit r b.NX b.NY b.NZ then b else { b with WhiteVoxels := some [] } := by
  unfold BinVOX.read64 BinVOX.read
  by_cases hr : r.nonneg = true
  swap
  · simp [hr]
  simp only [hr, Bool.not_true, Bool.false_eq_true, if_false]
  cases hh : readHeader (F := F) binvoxMagic r inp.bytes with
  | none => rfl
  | some p =>
    obtain ⟨h, rest⟩ := p
    obtain ⟨hs, hd⟩ := header_small hh
    obtain ⟨h1, h2⟩ := readData64_eq hs hr hd inp.clean rest ⟨0, 0, 0⟩ (start_in hs) []
    by_cases hf : EndsFit r h.nx h.ny h.nz
    · simp only [h1 hf]
      cases readData r h inp.clean rest ⟨0, 0, 0⟩ [] with
      | none => rfl
      | some m => simp [hf]
    · simp only [h2 hf []]
      cases readData r h inp.clean rest ⟨0, 0, 0⟩ [] with
      | none => rfl
      | some m => simp [hf]

/-- **C109.** Whole files are read as with unbounded integers. -/
theorem read64_whole [FloatText F] (inp : Input) : BinVOX.read64 (F := F) inp wholeRegion = BinVOX.read inp wholeRegion := by
  rw [read64_eq]
  cases hr : BinVOX.read (F := F) inp wholeRegion with
  | none => rfl
  | some b =>
    obtain ⟨-, -, h, hb, ps, -, ⟨d, t, e, -, ⟨a, b', c, f, -, ha, hb', hc, -⟩, -, -⟩, -, -, -, rfl⟩ := (read_iff inp _ b).mp hr
    have x := isNumber_range ha
    have y := isNumber_range hb'
    have z := isNumber_range hc
    have : EndsFit wholeRegion h.nx h.ny h.nz := by
      rw [endsFit_iff]; unfold wholeRegion clampCount; simp only [true_or, if_true]; omega
    simp only [Option.map_some, Option.some.injEq]
    exact if_pos this

/-- **C109.** So are boxes of files whose dimensions are at most `2^62 - 1`. -/
theorem read64_box [FloatText F] (inp : Input) (r : Region) {b : BinVOX F} (h : BinVOX.read inp r = some b)
    (hx : b.NX < 2 ^ 62) (hy : b.NY < 2 ^ 62) (hz : b.NZ < 2 ^ 62) : BinVOX.read64 inp r = some b := by
  rw [read64_eq, h]
  obtain ⟨hr, -, hd, hb, ps, -, ⟨d, t, e, -, ⟨a, b', c, f, -, ha, hb', hc, -⟩, -, -⟩, hst, -, -, rfl⟩ := (read_iff inp _ b).mp h
  have x := isNumber_range ha
  have y := isNumber_range hb'
  have z := isNumber_range hc
  simp only [Region.nonneg, Bool.not_eq_true', Bool.or_eq_false_iff, decide_eq_false_iff_not] at hr
  obtain ⟨⟨⟨⟨⟨r1, r2⟩, r3⟩, r4⟩, r5⟩, r6⟩ := hr
  obtain ⟨x1, x2⟩ := clamp_range (c := r.cx) (n := hd.nx) (by omega) x.1
  obtain ⟨y1, y2⟩ := clamp_range (c := r.cy) (n := hd.ny) (by omega) y.1
  obtain ⟨z1, z2⟩ := clamp_range (c := r.cz) (n := hd.nz) (by omega) z.1
  simp only [mkModel] at hx hy hz
  have : EndsFit r hd.nx hd.ny hd.nz := by rw [endsFit_iff]; omega
  simp only [Option.map_some, Option.some.injEq]
  exact if_pos this

theorem vshReadRun64_eq {h : Header F} (hs : h.Small) {r : Region} (hr : r.nonneg = true)
    (hd : r.sx ≤ h.nx ∧ r.sy ≤ h.ny ∧ r.sz ≤ h.nz) (v : BitVec 32) (n : Nat) :
    ∀ {c : Cursor}, c.In h → ∀ m : List VShVoxel,
      (EndsFit r h.nx h.ny h.nz → vshReadRun64 r h v n c m = vshReadRun r h v n c m) ∧
      (¬ EndsFit r h.nx h.ny h.nz → ∀ m', vshReadRun64 r h v n c m = (vshReadRun r h v n c m').map fun p => (p.1, m)) ∧
      ∀ c' m', vshReadRun r h v n c m = some (c', m') → c'.In h := by
  induction n with
  | zero =>
    intro c hc m
    refine ⟨fun _ => rfl, fun _ _ => rfl, ?_⟩
    intro c' m' he
    simp only [vshReadRun, Option.some.injEq, Prod.mk.injEq] at he
    rw [← he.1]; exact hc
  | succ n ih =>
    intro c hc m
    simp only [vshReadRun64, vshReadRun]
    by_cases hx : c.xi ≥ h.nx
    · simp [hx]
    · simp only [hx, if_false]
      obtain ⟨e, hin⟩ := next64_eq hs hc (by omega)
      rw [e, inRegion64_eq hs hr hd hc]
      refine ⟨fun hf => ?_, fun hf m' => ?_, fun c' m' he => (ih hin _).2.2 c' m' he⟩
      · simp only [hf, decide_true, Bool.and_true]
        exact (ih hin _).1 hf
      · simp only [hf, decide_false, Bool.and_false, Bool.false_eq_true, if_false]
        exact (ih hin m).2.1 hf _

theorem vshReadData_eof {r : Region} {h : Header F} {clean : Bool} {bs : Bytes} (e : vshNext clean bs = .eof) (c : Cursor)
    (m : List VShVoxel) : vshReadData r h clean bs c m = some m ∧ vshReadData64 r h clean bs c m = some m := by
  rw [vshReadData.eq_def, vshReadData64.eq_def]
  constructor <;> split <;> simp_all

theorem vshReadData_bad {r : Region} {h : Header F} {clean : Bool} {bs : Bytes} (e : vshNext clean bs = .bad) (c : Cursor)
    (m : List VShVoxel) : vshReadData r h clean bs c m = none ∧ vshReadData64 r h clean bs c m = none := by
  rw [vshReadData.eq_def, vshReadData64.eq_def]
  constructor <;> split <;> simp_all

theorem vshReadData_record {r : Region} {h : Header F} {clean : Bool} {bs rest : Bytes} {v : BitVec 32} {k : Nat}
    (e : vshNext clean bs = .record v k rest) (c : Cursor) (m : List VShVoxel) :
    vshReadData r h clean bs c m = ((vshReadRun r h v k c m).bind fun p => vshReadData r h clean rest p.1 p.2) ∧
    vshReadData64 r h clean bs c m = ((vshReadRun64 r h v k c m).bind fun p => vshReadData64 r h clean rest p.1 p.2) := by
  constructor
  · rw [vshReadData.eq_def]
    split
    · simp_all
    · simp_all
    · rename_i v' k' rest' e'
      rw [e] at e'; cases e'
      cases vshReadRun r h v k c m <;> rfl
  · rw [vshReadData64.eq_def]
    split
    · simp_all
    · simp_all
    · rename_i v' k' rest' e'
      rw [e] at e'; cases e'
      cases vshReadRun64 r h v k c m <;> rfl

theorem vshReadData64_eq {h : Header F} (hs : h.Small) {r : Region} (hr : r.nonneg = true)
    (hd : r.sx ≤ h.nx ∧ r.sy ≤ h.ny ∧ r.sz ≤ h.nz) (clean : Bool) (n : Nat) :
    ∀ (bs : Bytes), bs.length < n → ∀ (c : Cursor), c.In h → ∀ (m : List VShVoxel),
    (EndsFit r h.nx h.ny h.nz → vshReadData64 r h clean bs c m = vshReadData r h clean bs c m) ∧
    (¬ EndsFit r h.nx h.ny h.nz → ∀ m', vshReadData64 r h clean bs c m = (vshReadData r h clean bs c m').map fun _ => m) := by
  induction n with
  | zero => intro bs hb; omega
  | succ n ih =>
    intro bs hb c hc m
    cases e : vshNext clean bs with
    | eof =>
      refine ⟨fun _ => ?_, fun _ m' => ?_⟩
      · rw [(vshReadData_eof e c m).1, (vshReadData_eof e c m).2]
      · rw [(vshReadData_eof e c m').1, (vshReadData_eof e c m).2]; rfl
    | bad =>
      refine ⟨fun _ => ?_, fun _ m' => ?_⟩
      · rw [(vshReadData_bad e c m).1, (vshReadData_bad e c m).2]
      · rw [(vshReadData_bad e c m').1, (vshReadData_bad e c m).2]; rfl
    | record v k rest =>
      have hl := vshNext_length e
      obtain ⟨h1, h2, h3⟩ := vshReadRun64_eq hs hr hd v k hc m
      refine ⟨fun hf => ?_, fun hf m' => ?_⟩
      · rw [(vshReadData_record e c m).1, (vshReadData_record e c m).2, h1 hf]
        cases he : vshReadRun r h v k c m with
        | none => rfl
        | some p => exact (ih rest (by omega) p.1 (h3 _ _ he) p.2).1 hf
      · rw [(vshReadData_record e c m').1, (vshReadData_record e c m).2, h2 hf m']
        cases he : vshReadRun r h v k c m' with
        | none => rfl
        | some p => exact (ih rest (by omega) p.1 ((vshReadRun64_eq hs hr hd v k hc m').2.2 _ _ he) m).2 hf p.2

/-- **C109.** The same of vsh files. -/
theorem vsh_read64_eq [FloatText F] (inp : Input) (r : Region) :
    VShell.read64 (F := F) inp r = (VShell.read inp r).map fun b =>
      if EndsFit r b.NX b.NY b.NZ then b else { b with Voxels := [] } := by
  unfold VShell.read64 VShell.read
  by_cases hr : r.nonneg = true
  swap
  · simp [hr]
  simp only [hr, Bool.not_true, Bool.false_eq_true, if_false]
  cases hh : readHeader (F := F) vshMagic r inp.bytes with
  | none => rfl
  | some p =>
    obtain ⟨h, rest⟩ := p
    obtain ⟨hs, hd⟩ := header_small hh
    obtain ⟨h1, h2⟩ := vshReadData64_eq hs hr hd inp.clean _ rest (Nat.lt_succ_self _) ⟨0, 0, 0⟩ (start_in hs) []
    by_cases hf : EndsFit r h.nx h.ny h.nz
    · simp only [h1 hf]
      cases vshReadData r h inp.clean rest ⟨0, 0, 0⟩ [] with
      | none => rfl
      | some m => simp [hf]
    · simp only [h2 hf []]
      cases vshReadData r h inp.clean rest ⟨0, 0, 0⟩ [] with
      | none => rfl
      | some m => simp [hf]

/-- **C109.** Whole vsh files are read as with unbounded integers. -/
theorem vsh_read64_whole [FloatText F] (inp : Input) :
    VShell.read64 (F := F) inp wholeRegion = VShell.read inp wholeRegion := by
  rw [vsh_read64_eq]
  cases hr : VShell.read (F := F) inp wholeRegion with
  | none => rfl
  | some b =>
    obtain ⟨-, -, h, hb, ps, -, ⟨d, t, e, -, ⟨a, b', c, f, -, ha, hb', hc, -⟩, -, -⟩, -, -, -, rfl⟩ := (vsh_read_iff inp _ b).mp hr
    have x := isNumber_range ha
    have y := isNumber_range hb'
    have z := isNumber_range hc
    have : EndsFit wholeRegion h.nx h.ny h.nz := by
      rw [endsFit_iff]; unfold wholeRegion clampCount; simp only [true_or, if_true]; omega
    simp only [Option.map_some, Option.some.injEq]
    exact if_pos this

theorem intRange64_eq {a n : Int} (h : Fits64 (a + n)) : intRange64 a n = intRange a n := by
  unfold intRange64
  rw [wrap64_fits h]
  congr 1
  omega

theorem cells64_eq {r : Region} (h : BoxFits r) : cells64 r = cells r := by
  unfold cells64 cells
  rw [intRange64_eq h.1, intRange64_eq h.2.1, intRange64_eq h.2.2.1]

theorem cells_bound {r : Region} (h : BoxFits r) : (cells r).length < 2 ^ 63 := by
  rw [cells_length, Nat.mul_right_comm]; exact h.2.2.2

/-- The 64-bit state of the encoder stands for the unbounded one. -/
structure Same64 (s : EncState64) (t : EncState) (n : Nat) : Prop where
  value : s.value = t.value
  count : s.count = (t.count : Int)
  sent : s.sent = t.sent.map fun p => (p.1, (p.2 : Int))
  total : (t.sent.map (·.2)).sum + t.count ≤ n

theorem encodeStep64_same {m : WhiteVoxelMap} {s : EncState64} {t : EncState} {n : Nat} (h : Same64 s t n) (hn : n + 1 < 2 ^ 63)
    (k : Key) : Same64 (encodeStep64 m s k) (encodeStep m t k) (n + 1) := by
  obtain ⟨h1, h2, h3, h4⟩ := h
  unfold encodeStep64 encodeStep
  simp only [h1]
  generalize (if GoMap.has m k = true then (1 : UInt8) else 0) = v
  split
  · refine ⟨rfl, by simp, ?_, ?_⟩
    · by_cases hc : t.count > 0
      · have : s.count > 0 := by omega
        simp [hc, h3, h2]
      · have : ¬ s.count > 0 := by omega
        simp [hc, this, h3]
    · by_cases hc : t.count > 0
      · simp only [hc, if_true, List.map_append, List.map_cons, List.map_nil, List.sum_append, List.sum_cons, List.sum_nil]
        omega
      · simp only [hc, if_false]
        omega
  · refine ⟨rfl, ?_, h3, ?_⟩
    · dsimp only
      rw [h2, wrap64_fits]
      · push_cast; rfl
      · constructor <;> omega
    · dsimp only
      omega

theorem encode64_fold {m : WhiteVoxelMap} (ks : List Key) : ∀ {s : EncState64} {t : EncState} {n : Nat}, Same64 s t n →
    n + ks.length < 2 ^ 63 →
    Same64 (ks.foldl (encodeStep64 m) s) (ks.foldl (encodeStep m) t) (n + ks.length) := by
  induction ks with
  | nil => intro s t n h _; exact h
  | cons k ks ih =>
    intro s t n h hn
    simp only [List.length_cons] at hn ⊢
    have := ih (encodeStep64_same (m := m) h (by omega) k) (by omega)
    rw [show n + (ks.length + 1) = n + 1 + ks.length by omega]
    exact this

theorem encodeRuns64_eq {m : WhiteVoxelMap} {r : Region} (h : BoxFits r) :
    encodeRuns64 m r = (encodeRuns m r).map (fun p => (p.1, (p.2 : Int))) ∧ ((encodeRuns m r).map (·.2)).sum < 2 ^ 63 := by
  have hl : (cells r).length < 2 ^ 63 := cells_bound h
  have h0 : Same64 ⟨0, 0, []⟩ ⟨0, 0, []⟩ 0 := ⟨rfl, rfl, rfl, by simp⟩
  obtain ⟨h1, h2, h3, h4⟩ := encode64_fold (m := m) (cells r) h0 (by omega)
  unfold encodeRuns64 encodeRuns
  rw [cells64_eq h]
  generalize (cells r).foldl (encodeStep64 m) ⟨0, 0, []⟩ = s at *
  generalize (cells r).foldl (encodeStep m) ⟨0, 0, []⟩ = t at *
  dsimp only
  by_cases hc : t.count > 0
  · have : s.count > 0 := by omega
    rw [if_pos hc, if_pos this]
    simp only [List.map_append, List.map_cons, List.map_nil, List.sum_append, List.sum_cons, List.sum_nil, h1, h2, h3, true_and]
    omega
  · have : ¬ s.count > 0 := by omega
    rw [if_neg hc, if_neg this]
    simp only [h3, true_and]
    omega

theorem runBytes64_eq (p : UInt8 × Nat) : runBytes64 (p.1, (p.2 : Int)) = runBytes p := by
  unfold runBytes64 runBytes
  have e1 : (p.2 : Int).tdiv 255 = ((p.2 / 255 : Nat) : Int) := by simp [Int.tdiv_eq_ediv_of_nonneg]
  have e2 : (p.2 : Int).tmod 255 = ((p.2 % 255 : Nat) : Int) := by simp [Int.tmod_eq_emod_of_nonneg]
  dsimp only
  rw [e1, e2]
  simp only [Int.toNat_natCast, gt_iff_lt, Int.natCast_pos]
  congr 1
  by_cases h : 0 < p.2 / 255
  · rw [if_pos h]
  · rw [if_neg h]
    have : p.2 / 255 = 0 := by omega
    rw [this]; rfl

theorem sum64_eq (runs : List (UInt8 × Nat)) : ∀ n : Nat, n + (runs.map (·.2)).sum < 2 ^ 63 →
    (runs.map fun p => (p.1, (p.2 : Int))).foldl (fun n v => if v.1 = 1 then wrap64 (n + v.2) else n) (n : Int) =
      n + (runs.map (fun v => if v.1 = 1 then (v.2 : Int) else 0)).sum := by
  induction runs with
  | nil => intro n _; simp
  | cons p runs ih =>
    intro n hn
    simp only [List.map_cons, List.sum_cons, List.foldl_cons] at hn ⊢
    by_cases hp : p.1 = 1
    · simp only [hp, if_true]
      rw [wrap64_fits ⟨by omega, by omega⟩]
      have := ih (n + p.2) (by omega)
      push_cast at this
      rw [this]; ring
    · simp only [hp, if_false]
      rw [ih n (by omega)]; ring

/-- **C109.** If the ends of the box written and the number of its voxels are 64-bit integers, a binvox file is written as
    with unbounded integers, byte for byte and with the same count reported, whatever the writer does. -/
theorem write64_eq [FloatText F] (b : BinVOX F) (w : Sink) (r : Region) (h : BoxFits (writeRegion b.NX b.NY b.NZ r)) :
    b.write64 w r = b.write w r := by
  unfold BinVOX.write64 BinVOX.write
  split
  · rfl
  obtain ⟨h1, h2⟩ := encodeRuns64_eq (m := b.white) h
  dsimp only
  have hb : (encodeRuns64 b.white (writeRegion b.NX b.NY b.NZ r)).flatMap runBytes64 =
      (encodeRuns b.white (writeRegion b.NX b.NY b.NZ r)).flatMap runBytes := by
    rw [h1, List.flatMap_map]
    exact List.flatMap_congr fun p _ => runBytes64_eq p
  have hs := sum64_eq (encodeRuns b.white (writeRegion b.NX b.NY b.NZ r)) 0 (by omega)
  rw [hb, h1]
  simp only [Nat.cast_zero, zero_add] at hs
  rw [hs]

/-- **C109.** If an end of the box is beyond the 64-bit integers, no voxel is written at all: the file has a header only, and
    success is reported. -/
theorem write64_lost [FloatText F] (b : BinVOX F) (hne : b.white ≠ []) (r : Region)
    (hs : let q := writeRegion b.NX b.NY b.NZ r
      (0 ≤ q.sx ∧ q.sx < 2 ^ 63 ∧ q.cx < 2 ^ 63 ∧ 2 ^ 63 ≤ q.sx + q.cx) ∨ (0 ≤ q.sy ∧ q.sy < 2 ^ 63 ∧ q.cy < 2 ^ 63 ∧ 2 ^ 63 ≤ q.sy + q.cy) ∨
      (0 ≤ q.sz ∧ q.sz < 2 ^ 63 ∧ q.cz < 2 ^ 63 ∧ 2 ^ 63 ≤ q.sz + q.cz)) :
    b.write64 ⟨[], []⟩ r = (⟨headerBytes binvoxMagic (writeRegion b.NX b.NY b.NZ r).cx (writeRegion b.NX b.NY b.NZ r).cy
      (writeRegion b.NX b.NY b.NZ r).cz b.TX b.TY b.TZ b.Scale, []⟩, some 0) := by
  have key : ∀ {a n : Int}, 0 ≤ a ∧ a < 2 ^ 63 ∧ n < 2 ^ 63 ∧ 2 ^ 63 ≤ a + n → intRange64 a n = [] := by
    intro a n ⟨h1, h2, h3, h4⟩
    unfold intRange64 intRange
    have e : (wrap64 (a + n) - a).toNat = 0 := by
      rw [wrap64_over h4 (by omega)]; omega
    rw [e]
    rfl
  have hc : cells64 (writeRegion b.NX b.NY b.NZ r) = [] := by
    unfold cells64
    rcases hs with h | h | h
    · rw [key h]; rfl
    · rw [key h]; simp
    · rw [key h]; simp
  unfold BinVOX.write64
  rw [if_neg (by simpa using hne)]
  simp [encodeRuns64, hc, Sink.write]

/-- The state of the vsh encoder: counts are uint16 and add up to at most the cells visited. -/
theorem vEncode_total (vs : List VShVoxel) (lookup : GoMap Key Nat) (ks : List Key) : ∀ (s : VEncState) (n : Nat),
    (s.sent.map (·.2)).sum + s.count ≤ n →
    let t := ks.foldl (fun s k => vEncodeStep s (vshValue vs lookup k)) s
    (t.sent.map (·.2)).sum + t.count ≤ n + ks.length := by
  induction ks with
  | nil => intro s n h; simpa using h
  | cons k ks ih =>
    intro s n h
    dsimp only
    rw [List.foldl_cons, List.length_cons, show n + (ks.length + 1) = n + 1 + ks.length by omega]
    refine ih _ _ ?_
    unfold vEncodeStep
    split
    · dsimp only
      split
      · simp only [List.map_append, List.map_cons, List.map_nil, List.sum_append, List.sum_cons, List.sum_nil]
        omega
      · omega
    · dsimp only
      have := Nat.mod_le (s.count + 1) 65536
      omega

theorem vsum64_eq (runs : List (BitVec 32 × Nat)) : ∀ n : Nat, n + (runs.map (·.2)).sum < 2 ^ 63 →
    runs.foldl (fun n v => if isSpecial v.1 then n else wrap64 (n + (v.2 : Int))) (n : Int) =
      n + (runs.map (fun v => if isSpecial v.1 then 0 else (v.2 : Int))).sum := by
  induction runs with
  | nil => intro n _; simp
  | cons p runs ih =>
    intro n hn
    simp only [List.map_cons, List.sum_cons, List.foldl_cons] at hn ⊢
    by_cases hp : isSpecial p.1 = true
    · simp only [hp, if_true]
      rw [ih n (by omega)]; ring
    · simp only [hp, Bool.false_eq_true, if_false]
      rw [wrap64_fits ⟨by omega, by omega⟩]
      have := ih (n + p.2) (by omega)
      push_cast at this
      rw [this]; ring

/-- **C109.** The same of vsh files. -/
theorem vsh_write64_eq [FloatText F] (b : VShell F) (w : Sink) (r : Region) (h : BoxFits (writeRegion b.NX b.NY b.NZ r)) :
    b.write64 w r = b.write w r := by
  unfold VShell.write64 VShell.write
  split
  · rfl
  have hl : (cells (writeRegion b.NX b.NY b.NZ r)).length < 2 ^ 63 := cells_bound h
  have h1 : vEncodeRuns64 b.Voxels (vshLookup b.Voxels) (writeRegion b.NX b.NY b.NZ r) =
      vEncodeRuns b.Voxels (vshLookup b.Voxels) (writeRegion b.NX b.NY b.NZ r) := by
    unfold vEncodeRuns64 vEncodeRuns; rw [cells64_eq h]
  have h2 : ((vEncodeRuns b.Voxels (vshLookup b.Voxels) (writeRegion b.NX b.NY b.NZ r)).map (·.2)).sum < 2 ^ 63 := by
    have := vEncode_total b.Voxels (vshLookup b.Voxels) (cells (writeRegion b.NX b.NY b.NZ r)) ⟨0#32, 0, []⟩ 0 (by simp)
    dsimp only at this
    unfold vEncodeRuns
    generalize (cells (writeRegion b.NX b.NY b.NZ r)).foldl _ (⟨0#32, 0, []⟩ : VEncState) = t at *
    unfold VEncState.finish
    split
    · simp only [List.map_append, List.map_cons, List.map_nil, List.sum_append, List.sum_cons, List.sum_nil]
      omega
    · omega
  have hs := vsum64_eq _ 0 (by simpa using h2)
  dsimp only
  simp only [Nat.cast_zero, zero_add] at hs
  rw [h1, hs]

/-! ### Instances -/

/-- The header of the largest grid there is. -/
def exHugeHeader : Header ℚ := ⟨9223372036854775807, 1, 1, 0, 0, 0, 1⟩

/-- A file with it and its first two voxels set. -/
def exHuge : Input := ⟨headerBytes binvoxMagic 9223372036854775807 1 1 (0 : ℚ) 0 0 1 ++ pairBytes [(1, 2)], true⟩

theorem exHuge_read : BinVOX.read exHuge ⟨1, 0, 0, 0, 0, 0⟩ =
    some (mkModel exHugeHeader (addVals ⟨1, 0, 0, 0, 0, 0⟩ exHugeHeader (expand [(1, 2)]) 0 [])) := by
  refine (read_iff _ _ _).mpr ⟨by decide, rfl, exHugeHeader, _, [(1, 2)], rfl,
    isHeader_headerBytes (F := ℚ) binvoxMagic (h := exHugeHeader) (by decide) (by decide) (by decide) (by decide) (by decide)
      (by decide), by decide, ?_, by decide +kernel, rfl⟩
  intro p hp
  simp only [List.mem_singleton] at hp; subst hp; decide

/-- **C109, the defect.** Reading all of it but the first layer returns no voxel, without an error, although the second layer
    has one: `1 + 9223372036854775807` wraps around. -/
theorem read64_loses : ∃ b b' : BinVOX ℚ, BinVOX.read exHuge ⟨1, 0, 0, 0, 0, 0⟩ = some b ∧ Vox b ⟨1, 0, 0⟩ ∧
    BinVOX.read64 exHuge ⟨1, 0, 0, 0, 0, 0⟩ = some b' ∧ ∀ k, ¬ Vox b' k := by
  refine ⟨_, mkModel exHugeHeader [], exHuge_read, ?_, ?_, ?_⟩
  · unfold Vox; decide +kernel
  · rw [read64_eq, exHuge_read]
    simp only [Option.map_some, Option.some.injEq]
    exact if_neg (by decide +kernel)
  · intro k
    unfold Vox
    show ¬ GoMap.has ([] : WhiteVoxelMap) k = true
    simp [GoMap.has_nil]

/-- A box of 1×2×2 voxels far out, and a model with a voxel in it. -/
def exFarModel : BinVOX ℚ := ⟨4611686018427387904, 2, 2, 0, 0, 0, 1, some [(⟨4611686018427387903, 1, 0⟩, ())], none⟩

example : exFarModel.write64 ⟨[], []⟩ ⟨4611686018427387903, 0, 0, 1, 0, 0⟩ =
    exFarModel.write ⟨[], []⟩ ⟨4611686018427387903, 0, 0, 1, 0, 0⟩ :=
  write64_eq _ _ _ (by unfold BoxFits Fits64; decide +kernel)

example : exFarModel.write64 ⟨[], []⟩ ⟨4611686018427387904, 0, 0, 0, 0, 0⟩ =
    (⟨headerBytes binvoxMagic 4611686018427387904 2 2 (0 : ℚ) 0 0 1, []⟩, some 0) :=
  write64_lost exFarModel (by decide) _ (by decide +kernel)

example : BinVOX.read64 (F := ℚ) exHuge wholeRegion = BinVOX.read exHuge wholeRegion := read64_whole _

/-- A shell with one voxel. -/
def exFarShell : VShell ℚ := ⟨1, 2, 2, 0, 0, 0, 1, [⟨0, 1, 0, 5#32⟩]⟩

example : exFarShell.write64 ⟨[], []⟩ ⟨0, 1, 0, 0, 1, 0⟩ = exFarShell.write ⟨[], []⟩ ⟨0, 1, 0, 0, 1, 0⟩ :=
  vsh_write64_eq _ _ _ (by unfold BoxFits Fits64; decide +kernel)

end StlDice
