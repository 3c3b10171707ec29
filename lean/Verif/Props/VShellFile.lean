import Verif.Lemmas.VEncode
import Verif.Lemmas.RatText
import Verif.Lemmas.Chan

/-! # C21 – C24: vsh files -/

namespace StlDice
open Spec
variable {F : Type}

/-- Example shell: 2×3×2 with two voxels. -/
def exVsh : VShell ℚ :=
  { NX := 2, NY := 3, NZ := 2, TX := 1/2, TY := -3, TZ := 7, Scale := 6,
    Voxels := [⟨1, 2, 0, 5#32⟩, ⟨0, 0, 1, 0x7ffffff#32⟩] }

/-! ## C22: what is in the file -/

/-- C22, C04 for vsh: a fully successful write of any region of a non-empty shell leaves the header
    followed by legal records.  If `runs` is the decomposition of the cell values (y fastest, then z,
    then x) into maximal runs, the records describe each run with its length *modulo 65536*. -/
theorem vsh_write_exact [FloatText F] (b : VShell F) (hne : b.Voxels ≠ []) (r : Region) :
    let r' := writeRegion b.NX b.NY b.NZ r
    ∃ runs recs, MaximalRuns ((cells r').map (valueAt b)) runs ∧
      (b.write ⟨[], []⟩ r).1.out =
        headerBytes vshMagic r'.cx r'.cy r'.cz b.TX b.TY b.TZ b.Scale ++ recsBytes recs ∧
      LegalRecs recs ∧
      expandV recs = runs.flatMap (fun p => List.replicate (p.2 % 65536) p.1) ∧
      (b.write ⟨[], []⟩ r).2 =
        some (((expandV recs).filter (fun v => ¬ Special v)).length : Int) := by
  intro r'
  have hl : b.Voxels.length ≠ 0 := by simpa using hne
  obtain ⟨runs, hm, he⟩ := vEncodeRuns_spec b.Voxels (vshLookup b.Voxels) r'
  have hval : (cells r').map (vshValue b.Voxels (vshLookup b.Voxels)) = (cells r').map (valueAt b) :=
    List.map_congr_left fun k _ => vshValue_eq b k
  rw [hval] at hm
  have hok := writeAll_ok ⟨headerBytes vshMagic r'.cx r'.cy r'.cz b.TX b.TY b.TZ b.Scale, []⟩
    ((wrap16 runs).flatMap vRunCalls) (by simp)
  refine ⟨runs, (wrap16 runs).flatMap vRunRecs, hm, ?_,
    legal_vRunsRecs fun p hp => (wrap16_lt runs p hp).2, ?_, ?_⟩
  · simp only [VShell.write, hl, if_false, Sink.write, List.nil_append]
    rw [he, hok.2, vRunsCalls_flatten]
  · rw [expandV_vRunsRecs, expandV_wrap16]
  · simp only [VShell.write, hl, if_false, Sink.write, List.nil_append]
    rw [he, expandV_vRunsRecs]
    refine (if_pos hok.1).trans ?_
    congr 1
    generalize wrap16 runs = l
    induction l with
    | nil => rfl
    | cons p l ih =>
      simp only [List.map_cons, List.sum_cons, expandV, List.flatMap_cons, List.filter_append,
        List.length_append] at *
      rw [ih]
      by_cases hs : Special p.1
      · have h1 : isSpecial p.1 = true := (isSpecial_iff _).mpr hs
        rw [if_pos h1]
        rw [List.filter_eq_nil_iff (l := List.replicate p.2 p.1) |>.mpr (by
          intro v hv; have := List.eq_of_mem_replicate hv; subst this; simp [hs])]
        simp
      · have h1 : ¬ isSpecial p.1 = true := by rw [isSpecial_iff]; exact hs
        rw [if_neg h1]
        rw [List.filter_eq_self (l := List.replicate p.2 p.1) |>.mpr (by
          intro v hv; have := List.eq_of_mem_replicate hv; subst this; simp [hs])]
        simp

/-- C22: the file describes the cells of the region faithfully iff no maximal run of equal values
    reaches 65536. -/
theorem vsh_write_faithful_iff [FloatText F] (b : VShell F) (hne : b.Voxels ≠ []) (r : Region)
    (runs : List (BitVec 32 × Nat)) :
    let r' := writeRegion b.NX b.NY b.NZ r
    MaximalRuns ((cells r').map (valueAt b)) runs →
    ∃ recs, (b.write ⟨[], []⟩ r).1.out =
        headerBytes vshMagic r'.cx r'.cy r'.cz b.TX b.TY b.TZ b.Scale ++ recsBytes recs ∧
      LegalRecs recs ∧
      (expandV recs = (cells r').map (valueAt b) ↔ ∀ p ∈ runs, p.2 < 65536) := by
  intro r' hm
  obtain ⟨runs', recs, hm', ho, hleg, hexp, _⟩ := vsh_write_exact b hne r
  have := maximalRuns_unique hm' hm
  subst this
  refine ⟨recs, ho, hleg, ?_⟩
  rw [hexp, ← hm.1, ← wrap16_faithful_iff, expandV_wrap16]

/-! ## C23: the reader -/

/-- C23: the reader accepts exactly the well-formed files. -/
theorem vsh_read_accepts_iff [FloatText F] (inp : Input) (r : Region) :
    (∃ b : VShell F, VShell.read inp r = some b) ↔
      (0 ≤ r.sx ∧ 0 ≤ r.sy ∧ 0 ≤ r.sz ∧ 0 ≤ r.cx ∧ 0 ≤ r.cy ∧ 0 ≤ r.cz) ∧ inp.clean = true ∧
      ∃ (h : Header F) (hb : Bytes) (ps : List (BitVec 32 × Nat)),
        inp.bytes = hb ++ recsBytes ps ∧ IsHeader vshMagic h hb ∧
        (r.sx ≤ h.nx ∧ r.sy ≤ h.ny ∧ r.sz ≤ h.nz) ∧ LegalRecs ps ∧
        (ps.map (·.2)).sum ≤ capacity h := by
  constructor
  · rintro ⟨b, hb⟩
    obtain ⟨h1, h2, h, hb, ps, h3, h4, h5, h6, h7, _⟩ := (vsh_read_iff inp r b).mp hb
    exact ⟨(nonneg_iff r).mp h1, h2, h, hb, ps, h3, h4, h5, h6, by rw [← expandV_length]; exact h7⟩
  · rintro ⟨h1, h2, h, hb, ps, h3, h4, h5, h6, h7⟩
    exact ⟨_, (vsh_read_iff inp r _).mpr
      ⟨(nonneg_iff r).mpr h1, h2, h, hb, ps, h3, h4, h5, h6, by rw [expandV_length]; exact h7, rfl⟩⟩

/-- C23: the header of the shell is the one in the file; positions of the voxels are unique; the
    voxels are exactly the non-special values of the data at index `(x*NZ + z)*NY + y` inside the
    closed sub-region. -/
theorem vsh_read_voxels [FloatText F] (inp : Input) (r : Region) (b : VShell F) (h : Header F)
    (hb : Bytes) (ps : List (BitVec 32 × Nat)) (hbytes : inp.bytes = hb ++ recsBytes ps)
    (hh : IsHeader vshMagic h hb) (hl : LegalRecs ps) (hr : VShell.read inp r = some b)
    (hx : 0 < h.nx) (hy : 0 < h.ny) (hz : 0 < h.nz) :
    (b.NX = h.nx ∧ b.NY = h.ny ∧ b.NZ = h.nz ∧ b.TX = h.tx ∧ b.TY = h.ty ∧ b.TZ = h.tz ∧
      b.Scale = h.scale) ∧ (b.Voxels.map VShVoxel.key).Nodup ∧
    ∀ w : VShVoxel, w ∈ b.Voxels ↔ ¬ Special w.N ∧ InDims h.nx h.ny h.nz w.key ∧
      InClosed ⟨r.sx, r.sy, r.sz, clampCount r.cx h.nx, clampCount r.cy h.ny, clampCount r.cz h.nz⟩ w.key ∧
      (expandV ps)[((w.X * h.nz + w.Z) * h.ny + w.Y).toNat]? = some w.N := by
  obtain ⟨_, _, h', hb', ps', h3, h4, _, hl', hlen, rfl⟩ := (vsh_read_iff inp r b).mp hr
  obtain ⟨rfl, _, hps⟩ := isHeader_unique isLine_vshMagic h4 hh (h3.symm.trans hbytes)
  have := recsBytes_injective hl' hl hps; subst this
  refine ⟨⟨rfl, rfl, rfl, rfl, rfl, rfl, rfl⟩, vAddVals_nodup _ _ _ _, ?_⟩
  intro w
  have hvox : w ∈ (mkShell h' (vAddVals r h' (expandV ps') 0)).Voxels ↔
      w ∈ vAddVals r h' (expandV ps') 0 := Iff.rfl
  rw [hvox, mem_vAddVals]
  simp only [Nat.zero_add]
  have py := effDim_pos h'.ny
  have pz := effDim_pos h'.nz
  have ey : ((effDim h'.ny : Nat) : Int) = h'.ny := effDim_of_pos hy
  have ez : ((effDim h'.nz : Nat) : Int) = h'.nz := effDim_of_pos hz
  have hreg : inRegion r h' ⟨w.X, w.Y, w.Z⟩ = true ↔ InClosed ⟨r.sx, r.sy, r.sz,
      clampCount r.cx h'.nx, clampCount r.cy h'.ny, clampCount r.cz h'.nz⟩ w.key := by
    simp only [inRegion, Bool.and_eq_true, decide_eq_true_eq, InClosed, VShVoxel.key]
    constructor
    · rintro ⟨⟨⟨⟨⟨a, b⟩, c⟩, d⟩, e⟩, f⟩; exact ⟨a, b, c, d, e, f⟩
    · rintro ⟨a, b, c, d, e, f⟩; exact ⟨⟨⟨⟨⟨a, b⟩, c⟩, d⟩, e⟩, f⟩
  rw [hreg]
  constructor
  · rintro ⟨hs, h3, j, h1, h2⟩
    have hk := (keyAt_iff py pz j w.key).mp h2
    have hj : j < (expandV ps').length := by
      by_contra hge
      rw [List.getElem?_eq_none (by omega)] at h1; cases h1
    have hin : InDims h'.nx h'.ny h'.nz w.key := by
      have := (exists_keyAt (nx := h'.nx.toNat) py pz w.key).mp ⟨j, by
        rw [← capacity_eq]; omega, h2⟩
      rw [ey, ez] at this
      have e : ((h'.nx.toNat : Nat) : Int) = h'.nx := by omega
      rw [e] at this; exact this
    refine ⟨hs, hin, h3, ?_⟩
    have hk' : (j : Int) = (w.X * h'.nz + w.Z) * h'.ny + w.Y := by rw [← ey, ← ez]; exact hk.2.2.2
    rw [← hk']
    simpa using h1
  · rintro ⟨hs, hin, h3, h1⟩
    obtain ⟨a1, a2, a3, a4, a5, a6⟩ := hin
    refine ⟨hs, h3, ((w.X * h'.nz + w.Z) * h'.ny + w.Y).toNat, h1, ?_⟩
    rw [keyAt_iff py pz, ey, ez]
    refine ⟨a1, ⟨a3, a4⟩, ⟨a5, a6⟩, ?_⟩
    rw [Int.toNat_of_nonneg]
    · rfl
    · have : 0 ≤ (w.X * h'.nz + w.Z) * h'.ny :=
        Int.mul_nonneg (Int.add_nonneg (Int.mul_nonneg a1 (by omega)) a5) (by omega)
      have : 0 ≤ w.Y := a3
      omega

/-! ## C21: round trip -/

theorem inRegion_whole (h : Header F) (c : Cursor) (hc : InDims h.nx h.ny h.nz ⟨c.xi, c.yi, c.zi⟩) :
    inRegion wholeRegion h c = true := by
  obtain ⟨a1, a2, a3, a4, a5, a6⟩ := hc
  simp only [inRegion, wholeRegion, clampCount, true_or, if_true, Bool.and_eq_true,
    decide_eq_true_eq]
  dsimp only at *
  refine ⟨⟨⟨⟨⟨?_, ?_⟩, ?_⟩, ?_⟩, ?_⟩, ?_⟩ <;> first | omega | exact decide_eq_true (by omega)

/-- Reading back the values of all cells of a region with the region's counts as dimensions. -/
theorem vsh_readback (b : VShell F) (h : Header F) (s : Region)
    (hx : 0 ≤ h.nx) (hy : 0 ≤ h.ny) (hz : 0 ≤ h.nz)
    (hc : s.cx = h.nx ∧ s.cy = h.ny ∧ s.cz = h.nz) (w : VShVoxel) :
    w ∈ vAddVals wholeRegion h ((cells s).map (valueAt b)) 0 ↔
      InDims h.nx h.ny h.nz w.key ∧ ¬ Special w.N ∧ valueAt b (w.key.shift s.sx s.sy s.sz) = w.N := by
  rw [mem_vAddVals]
  simp only [Nat.zero_add]
  rw [cells_eq, List.map_map]
  constructor
  · rintro ⟨hs, _, j, h1, h2⟩
    rw [List.getElem?_map] at h1
    have hj : j < s.cx.toNat * s.cz.toNat * s.cy.toNat := by
      by_contra hge
      rw [List.getElem?_eq_none (by simpa using hge)] at h1; simp at h1
    rw [List.getElem?_range hj] at h1
    simp only [Option.map_some, Function.comp, Option.some.injEq] at h1
    have py : 0 < s.cy.toNat := by
      rcases Nat.eq_zero_or_pos s.cy.toNat with e | e
      · rw [e] at hj; omega
      · exact e
    have pz : 0 < s.cz.toNat := by
      rcases Nat.eq_zero_or_pos s.cz.toNat with e | e
      · rw [e] at hj; simp at hj
      · exact e
    have e1 : effDim h.ny = s.cy.toNat := by unfold effDim; rw [← hc.2.1]; omega
    have e2 : effDim h.nz = s.cz.toNat := by unfold effDim; rw [← hc.2.2]; omega
    rw [e1, e2] at h2
    refine ⟨?_, hs, by rw [← h2]; exact h1⟩
    have := (exists_keyAt (nx := s.cx.toNat) py pz w.key).mp ⟨j, hj, h2⟩
    have i1 : ((s.cx.toNat : Nat) : Int) = h.nx := by rw [← hc.1]; omega
    have i2 : ((s.cy.toNat : Nat) : Int) = h.ny := by rw [← hc.2.1]; omega
    have i3 : ((s.cz.toNat : Nat) : Int) = h.nz := by rw [← hc.2.2]; omega
    rw [i1, i2, i3] at this; exact this
  · rintro ⟨hin, hs, hv⟩
    refine ⟨hs, inRegion_whole h _ hin, ?_⟩
    obtain ⟨a1, a2, a3, a4, a5, a6⟩ := hin
    have py : 0 < s.cy.toNat := by rw [hc.2.1]; omega
    have pz : 0 < s.cz.toNat := by rw [hc.2.2]; omega
    have e1 : effDim h.ny = s.cy.toNat := by unfold effDim; rw [← hc.2.1]; omega
    have e2 : effDim h.nz = s.cz.toNat := by unfold effDim; rw [← hc.2.2]; omega
    have : InDims (s.cx.toNat : Nat) (s.cy.toNat : Nat) (s.cz.toNat : Nat) w.key := by
      unfold InDims; rw [hc.1, hc.2.1, hc.2.2]; omega
    obtain ⟨i, hi, hk⟩ := (exists_keyAt (nx := s.cx.toNat) py pz w.key).mpr this
    refine ⟨i, ?_, by rw [e1, e2]; exact hk⟩
    rw [List.getElem?_map, List.getElem?_range hi]
    simp only [Option.map_some, Function.comp, Option.some.injEq, hk]
    exact hv

theorem valueAt_eq_iff (b : VShell F) (hnd : (b.Voxels.map VShVoxel.key).Nodup) (w : VShVoxel)
    (hw : w.N ≠ 0#32) : valueAt b w.key = w.N ↔ w ∈ b.Voxels := by
  unfold valueAt
  constructor
  · intro h
    cases hf : b.Voxels.reverse.find? (fun v => decide (v.key = w.key)) with
    | none => rw [hf] at h; exact absurd h.symm hw
    | some v =>
      rw [hf] at h
      have hm := List.mem_of_find?_eq_some hf
      have hk := List.find?_some hf
      simp only [decide_eq_true_eq] at hk
      rw [List.mem_reverse] at hm
      have : v = w := by
        obtain ⟨x, y, z, n⟩ := v; obtain ⟨x', y', z', n'⟩ := w
        simp only [VShVoxel.key, Key.mk.injEq] at hk
        simp only at h
        simp only [VShVoxel.mk.injEq]; exact ⟨hk.1, hk.2.1, hk.2.2, h⟩
      rw [← this]; exact hm
  · intro hm
    cases hf : b.Voxels.reverse.find? (fun v => decide (v.key = w.key)) with
    | none =>
      have := List.find?_eq_none.mp hf w (List.mem_reverse.mpr hm)
      simp at this
    | some v =>
      have hmv := List.mem_of_find?_eq_some hf
      have hk := List.find?_some hf
      simp only [decide_eq_true_eq] at hk
      rw [List.mem_reverse] at hmv
      have := List.inj_on_of_nodup_map hnd hmv hm hk
      rw [this]

/-- C21 (any region): if no value fills 65536 consecutive cells of the region, reading the written
    region back gives the counts as dimensions, the shell's translation and scale, and exactly the
    non-special values of the region, shifted by `-s`. -/
theorem vsh_write_region_read [FloatText F] [LawfulFloatText F] (b : VShell F) (hne : b.Voxels ≠ [])
    (r : Region) :
    let r' := writeRegion b.NX b.NY b.NZ r
    (0 ≤ r'.cx ∧ r'.cx ≤ maxInt) → (0 ≤ r'.cy ∧ r'.cy ≤ maxInt) → (0 ≤ r'.cz ∧ r'.cz ≤ maxInt) →
    NoLongRun ((cells r').map (valueAt b)) →
    ∃ b' : VShell F, VShell.read ⟨(b.write ⟨[], []⟩ r).1.out, true⟩ wholeRegion = some b' ∧
      b'.NX = r'.cx ∧ b'.NY = r'.cy ∧ b'.NZ = r'.cz ∧
      b'.TX = b.TX ∧ b'.TY = b.TY ∧ b'.TZ = b.TZ ∧ b'.Scale = b.Scale ∧
      (b'.Voxels.map VShVoxel.key).Nodup ∧
      ∀ w, w ∈ b'.Voxels ↔ InDims r'.cx r'.cy r'.cz w.key ∧ ¬ Special w.N ∧
        valueAt b (w.key.shift r'.sx r'.sy r'.sz) = w.N := by
  intro r' hx hy hz hnl
  obtain ⟨runs, recs, hm, ho, hleg, hexp, _⟩ := vsh_write_exact b hne r
  have hfaith : expandV recs = (cells r').map (valueAt b) := by
    rw [hexp, ← hm.1, ← expandV_wrap16, wrap16_faithful_iff]
    exact short_runs hnl hm
  let h : Header F := ⟨r'.cx, r'.cy, r'.cz, b.TX, b.TY, b.TZ, b.Scale⟩
  refine ⟨mkShell h (vAddVals wholeRegion h (expandV recs) 0), ?_, rfl, rfl, rfl, rfl, rfl, rfl, rfl,
    vAddVals_nodup _ _ _ _, ?_⟩
  · rw [vsh_read_iff]
    refine ⟨by decide, rfl, h, _, recs, ho, isHeader_headerBytes vshMagic hx.1 hy.1 hz.1 hx.2 hy.2
      hz.2, ⟨hx.1, hy.1, hz.1⟩, hleg, ?_, rfl⟩
    rw [hfaith, List.length_map, cells_length]
    unfold capacity
    exact Nat.mul_le_mul (Nat.mul_le_mul_left _ (Nat.le_max_left _ _)) (Nat.le_max_left _ _)
  · intro w
    rw [hfaith]
    exact vsh_readback b h r' hx.1 hy.1 hz.1 ⟨rfl, rfl, rfl⟩ w

/-- On a working file system `Write` leaves what `write` produces and reports success. -/
theorem vsh_Write_ok [FloatText F] (b : VShell F) (hne : b.Voxels ≠ []) (r : Region)
    (env : FileEnv) (hc : env.createOk = true) (hp : ∀ o ∈ env.plan, o = WOut.full)
    (hcl : env.closeOk = true) :
    b.Write env r = (some (b.write ⟨[], []⟩ r).1.out, true) := by
  have hl : b.Voxels.length ≠ 0 := by simpa using hne
  have key : ∀ (w w' : Sink) (calls : List Bytes), (∀ o ∈ w.plan, o = WOut.full) →
      (∀ o ∈ w'.plan, o = WOut.full) → w.out = w'.out →
      (w.writeAll calls).2 = true ∧ (w.writeAll calls).1.out = (w'.writeAll calls).1.out := by
    intro w w' calls h h' ho
    exact ⟨(writeAll_ok w calls h).1, by
      rw [(writeAll_ok w calls h).2, (writeAll_ok w' calls h').2, ho]⟩
  unfold VShell.Write
  rw [hc, hcl]
  have hw1 : ∀ (o : Bytes) (hd : Bytes), ∀ x ∈ (Sink.write ⟨o, env.plan⟩ hd).1.plan, x = WOut.full := by
    intro o hd x hx
    unfold Sink.write at hx
    rcases hplan : env.plan with _ | ⟨o1, p⟩
    · rw [hplan] at hx; simp at hx
    · rw [hplan] at hx
      have h1 := hp o1 (by simp [hplan]); subst h1
      exact hp x (by rw [hplan]; exact List.mem_cons_of_mem _ hx)
  have hw2 : ∀ (hd : Bytes), (Sink.write ⟨[], env.plan⟩ hd).1.out = hd := by
    intro hd
    unfold Sink.write
    rcases hplan : env.plan with _ | ⟨o1, p⟩
    · simp
    · have h1 := hp o1 (by simp [hplan]); subst h1; simp
  simp only [Bool.not_true, Bool.false_eq_true, if_false, VShell.write, hl]
  obtain ⟨k1, k2⟩ := key (Sink.write ⟨[], env.plan⟩ (headerBytes vshMagic
    (writeRegion b.NX b.NY b.NZ r).cx (writeRegion b.NX b.NY b.NZ r).cy
    (writeRegion b.NX b.NY b.NZ r).cz b.TX b.TY b.TZ b.Scale)).1
    (Sink.write ⟨[], []⟩ (headerBytes vshMagic
    (writeRegion b.NX b.NY b.NZ r).cx (writeRegion b.NX b.NY b.NZ r).cy
    (writeRegion b.NX b.NY b.NZ r).cz b.TX b.TY b.TZ b.Scale)).1
    (List.flatMap vRunCalls (vEncodeRuns b.Voxels (vshLookup b.Voxels)
      (writeRegion b.NX b.NY b.NZ r))) (hw1 _ _) (by simp [Sink.write])
      (by rw [hw2]; simp [Sink.write])
  rw [k1, if_pos rfl]
  simp only
  rw [k2]

/-- C21: the whole-shell round trip through a file. -/
theorem vsh_roundtrip [FloatText F] [LawfulFloatText F] (b : VShell F) (hne : b.Voxels ≠ [])
    (hx : 0 ≤ b.NX ∧ b.NX ≤ maxInt) (hy : 0 ≤ b.NY ∧ b.NY ≤ maxInt) (hz : 0 ≤ b.NZ ∧ b.NZ ≤ maxInt)
    (hin : ∀ w ∈ b.Voxels, InDims b.NX b.NY b.NZ w.key)
    (hnd : (b.Voxels.map VShVoxel.key).Nodup) (hN : ∀ w ∈ b.Voxels, ¬ Special w.N)
    (hnl : NoLongRun ((cells ⟨0, 0, 0, b.NX, b.NY, b.NZ⟩).map (valueAt b)))
    (env : FileEnv) (hc : env.createOk = true) (hp : ∀ o ∈ env.plan, o = WOut.full)
    (hcl : env.closeOk = true) :
    ∃ file b', b.Write env wholeRegion = (some file, true) ∧
      VShell.Read (some ⟨file, true⟩) wholeRegion = some b' ∧
      b'.NX = b.NX ∧ b'.NY = b.NY ∧ b'.NZ = b.NZ ∧ b'.TX = b.TX ∧ b'.TY = b.TY ∧ b'.TZ = b.TZ ∧
      b'.Scale = b.Scale ∧ b'.Voxels.Perm b.Voxels := by
  have h := vsh_write_region_read b hne wholeRegion
  have e : writeRegion b.NX b.NY b.NZ wholeRegion = ⟨0, 0, 0, b.NX, b.NY, b.NZ⟩ := rfl
  simp only [e] at h
  obtain ⟨b', hr, h1, h2, h3, h4, h5, h6, h7, hnd', hv⟩ := h hx hy hz hnl
  refine ⟨(b.write ⟨[], []⟩ wholeRegion).1.out, b', ?_, hr, h1, h2, h3, h4, h5, h6, h7, ?_⟩
  · exact vsh_Write_ok b hne wholeRegion env hc hp hcl
  · rw [List.perm_ext_iff_of_nodup hnd'.of_map hnd.of_map]
    intro w
    rw [hv]
    have e : w.key.shift 0 0 0 = w.key := by simp [Key.shift]
    rw [e]
    constructor
    · rintro ⟨_, hs, hval⟩
      exact (valueAt_eq_iff b hnd w (fun h0 => hs (Or.inl h0))).mp hval
    · intro hm
      exact ⟨hin w hm, hN w hm, (valueAt_eq_iff b hnd w (fun h0 => hN w hm (Or.inl h0))).mpr hm⟩

/-- A list shorter than 65536 has no long run. -/
theorem noLongRun_of_length {vals : List (BitVec 32)} (h : vals.length < 65536) : NoLongRun vals := by
  intro v hv
  have := hv.length_le
  rw [List.length_replicate] at this
  omega

example : exVsh.Voxels ≠ [] ∧ (∀ w ∈ exVsh.Voxels, InDims exVsh.NX exVsh.NY exVsh.NZ w.key) ∧
    (exVsh.Voxels.map VShVoxel.key).Nodup ∧ (∀ w ∈ exVsh.Voxels, ¬ Special w.N) ∧
    NoLongRun ((cells ⟨0, 0, 0, exVsh.NX, exVsh.NY, exVsh.NZ⟩).map (valueAt exVsh)) := by
  refine ⟨by decide, ?_, by decide, by decide, noLongRun_of_length ?_⟩
  · intro w hw
    have : w = ⟨1, 2, 0, 5#32⟩ ∨ w = ⟨0, 0, 1, 0x7ffffff#32⟩ := by simpa [exVsh] using hw
    rcases this with rfl | rfl <;> (unfold InDims VShVoxel.key exVsh; norm_num)
  · rw [List.length_map, cells_length]; decide

/-- C21 for an empty shell: a 0×0×0 file that reads back empty. -/
theorem vsh_roundtrip_empty [FloatText F] [LawfulFloatText F] (b : VShell F) (he : b.Voxels = [])
    (r : Region) :
    ∃ b' : VShell F, VShell.read ⟨(b.write ⟨[], []⟩ r).1.out, true⟩ wholeRegion = some b' ∧
      (b.write ⟨[], []⟩ r).2 = some 0 ∧ b'.NX = 0 ∧ b'.NY = 0 ∧ b'.NZ = 0 ∧ b'.TX = b.TX ∧ b'.TY = b.TY ∧
      b'.TZ = b.TZ ∧ b'.Scale = b.Scale ∧ b'.Voxels = [] := by
  let h : Header F := ⟨0, 0, 0, b.TX, b.TY, b.TZ, b.Scale⟩
  refine ⟨mkShell h (vAddVals wholeRegion h (expandV []) 0), ?_, ?_, rfl, rfl, rfl, rfl, rfl, rfl, rfl, rfl⟩
  · rw [vsh_read_iff]
    refine ⟨by decide, rfl, h, headerBytes vshMagic 0 0 0 b.TX b.TY b.TZ b.Scale, [], ?_, ?_,
      ⟨le_refl _, le_refl _, le_refl _⟩, by simp [LegalRecs], by simp [expandV], rfl⟩
    · simp [VShell.write, he, Sink.write, recsBytes]
    · have m : (0 : Int) ≤ maxInt := by decide
      exact isHeader_headerBytes vshMagic (h := h) (le_refl _) (le_refl _) (le_refl _) m m m
  · simp [VShell.write, he]

/-- C21 needs its hypotheses: a voxel whose N is special (0 or 0xffffffff) is lost, whatever else the
    shell holds. -/
theorem vsh_special_lost [FloatText F] [LawfulFloatText F] (b : VShell F)
    (hx : 0 ≤ b.NX ∧ b.NX ≤ maxInt) (hy : 0 ≤ b.NY ∧ b.NY ≤ maxInt) (hz : 0 ≤ b.NZ ∧ b.NZ ≤ maxInt)
    (hnd : (b.Voxels.map VShVoxel.key).Nodup)
    (hnl : NoLongRun ((cells ⟨0, 0, 0, b.NX, b.NY, b.NZ⟩).map (valueAt b)))
    (w : VShVoxel) (hw : w ∈ b.Voxels) (hs : Special w.N) :
    ∃ b' : VShell F, VShell.read ⟨(b.write ⟨[], []⟩ wholeRegion).1.out, true⟩ wholeRegion = some b' ∧
      ∀ v ∈ b'.Voxels, v.key ≠ w.key := by
  have hne : b.Voxels ≠ [] := by intro h; rw [h] at hw; cases hw
  have h := vsh_write_region_read b hne wholeRegion
  have e : writeRegion b.NX b.NY b.NZ wholeRegion = ⟨0, 0, 0, b.NX, b.NY, b.NZ⟩ := rfl
  simp only [e] at h
  obtain ⟨b', hr, _, _, _, _, _, _, _, _, hv⟩ := h hx hy hz hnl
  refine ⟨b', hr, ?_⟩
  intro v hv' hk
  obtain ⟨_, hns, hval⟩ := (hv v).mp hv'
  have e2 : v.key.shift 0 0 0 = v.key := by simp [Key.shift]
  rw [e2] at hval
  have hm := (valueAt_eq_iff b hnd v (fun h0 => hns (Or.inl h0))).mp hval
  have := List.inj_on_of_nodup_map hnd hm hw hk
  rw [this] at hns
  exact hns hs

/-! ## C22: the violation -/

/-- C22 fails: in a 1×(L+1)×1 shell whose only voxel sits at y = L, L any multiple of 65536, the L
    empty cells before it vanish from the file and the voxel comes back at y = 0. -/
theorem vsh_long_run_moves_voxel [FloatText F] [LawfulFloatText F] (N : BitVec 32) (hN : ¬ Special N)
    (tx ty tz scale : F) (L : Nat) (hL : L % 65536 = 0) (hpos : 0 < L) (hmax : L < maxInt) :
    let b : VShell F := ⟨1, L + 1, 1, tx, ty, tz, scale, [⟨0, L, 0, N⟩]⟩
    ∃ b' : VShell F, VShell.read ⟨(b.write ⟨[], []⟩ wholeRegion).1.out, true⟩ wholeRegion = some b' ∧
      b'.Voxels = [⟨0, 0, 0, N⟩] := by
  intro b
  have hne : b.Voxels ≠ [] := by simp [b]
  have hvals : (cells ⟨0, 0, 0, 1, L + 1, 1⟩).map (valueAt b) = List.replicate L 0#32 ++ [N] := by
    have h1 : cells ⟨0, 0, 0, 1, L + 1, 1⟩ = (List.range (L + 1)).map (fun i : Nat => (⟨0, i, 0⟩ : Key)) := by
      have e1 : ((L : Int) + 1).toNat = L + 1 := by omega
      rw [cells_eq]
      dsimp only
      rw [e1]
      have e2 : (1 : Int).toNat * (1 : Int).toNat * (L + 1) = L + 1 := by simp
      rw [e2]
      apply List.map_congr_left
      intro i hi
      have hi : i < L + 1 := List.mem_range.mp hi
      have d : i / (L + 1) = 0 := Nat.div_eq_of_lt hi
      have m : i % (L + 1) = i := Nat.mod_eq_of_lt hi
      simp [keyAt, Key.shift, d, m]
    rw [h1, List.range_succ, List.map_append, List.map_append, List.map_map]
    congr 1
    · have : ∀ n, n ≤ L → (List.range n).map (valueAt b ∘ fun i : Nat => (⟨0, i, 0⟩ : Key)) =
          List.replicate n 0#32 := by
        intro n hn
        rw [List.eq_replicate_iff]
        refine ⟨by simp, ?_⟩
        intro v hv
        obtain ⟨i, hi, rfl⟩ := List.mem_map.mp hv
        have hi := List.mem_range.mp hi
        have hk : ¬ ((⟨0, (L : Int), 0⟩ : Key) = ⟨0, (i : Int), 0⟩) := by
          simp only [Key.mk.injEq]; omega
        have hLi : ¬ L = i := by omega
        simp [valueAt, b, VShVoxel.key, hLi]
      exact this L (le_refl _)
    · simp [valueAt, b, VShVoxel.key]
  obtain ⟨runs, recs, hm, ho, hleg, hexp, _⟩ := vsh_write_exact b hne wholeRegion
  have hr' : writeRegion b.NX b.NY b.NZ wholeRegion = ⟨0, 0, 0, 1, L + 1, 1⟩ := by
    have : ¬ ((L : Int) + 1 = 0) := by omega
    simp [writeRegion, wholeRegion, b]
  rw [hr', hvals] at hm
  have hruns : runs = [(0#32, L), (N, 1)] := by
    refine maximalRuns_unique hm ⟨?_, ?_, ?_⟩
    · simp [expandV]
    · simpa using hpos
    · simp only [List.isChain_cons_cons, List.isChain_singleton, and_true]
      exact fun e => hN (Or.inl e.symm)
  have hexp' : expandV recs = [N] := by
    rw [hexp, hruns]
    simp [hL]
  let h : Header F := ⟨1, L + 1, 1, tx, ty, tz, scale⟩
  have h1 : (0 : Int) ≤ 1 := by decide
  have h2 : (0 : Int) ≤ (L : Int) + 1 := by omega
  have h3 : (1 : Int) ≤ maxInt := by decide
  have h4 : ((L : Int) + 1) ≤ maxInt := by omega
  refine ⟨mkShell h (vAddVals wholeRegion h (expandV recs) 0), ?_, ?_⟩
  · rw [vsh_read_iff]
    rw [hr'] at ho
    refine ⟨by decide, rfl, h, _, recs, ho, isHeader_headerBytes vshMagic (h := h) h1 h2 h1 h3 h4 h3,
      ⟨h1, h2, h1⟩, hleg, ?_, rfl⟩
    rw [hexp']
    show 1 ≤ 1 * max 1 1 * max ((L : Int) + 1).toNat 1
    rw [Nat.max_self, Nat.mul_one, Nat.one_mul]
    exact Nat.le_max_right _ _
  · show vAddVals wholeRegion h (expandV recs) 0 = _
    rw [hexp']
    simp only [vAddVals, List.append_nil, cursorAt_zero]
    have hs : isSpecial N = false := by rw [← Bool.not_eq_true, isSpecial_iff]; exact hN
    have hr : inRegion wholeRegion h ⟨0, 0, 0⟩ = true := by
      apply inRegion_whole
      show (0 : Int) ≤ 0 ∧ (0 : Int) < 1 ∧ (0 : Int) ≤ 0 ∧ (0 : Int) < (L : Int) + 1 ∧ (0 : Int) ≤ 0 ∧ (0 : Int) < 1
      omega
    rw [hs, hr]; rfl

example : ¬ Special 5#32 ∧ 65536 % 65536 = 0 ∧ 65536 < maxInt := by decide

/-! ## C24: truncation -/

/-- C24: if a file reads as `bf`, then any prefix of it (with or without a read error at its end)
    either fails to read or gives the same header and an initial part of the voxels of `bf`. -/
theorem vsh_read_truncated [FloatText F] (bytes : Bytes) (r : Region) (bf : VShell F)
    (hf : VShell.read ⟨bytes, true⟩ r = some bf) (n : Nat) (clean : Bool) (b : VShell F)
    (hr : VShell.read ⟨bytes.take n, clean⟩ r = some b) :
    b.NX = bf.NX ∧ b.NY = bf.NY ∧ b.NZ = bf.NZ ∧ b.TX = bf.TX ∧ b.TY = bf.TY ∧ b.TZ = bf.TZ ∧
      b.Scale = bf.Scale ∧ b.Voxels <+: bf.Voxels := by
  obtain ⟨_, _, h, hb, ps, e1, e2, _, hl, hlen, rfl⟩ := (vsh_read_iff _ r bf).mp hf
  obtain ⟨_, _, h', hb', ps', e1', e2', _, hl', hlen', rfl⟩ := (vsh_read_iff _ r b).mp hr
  simp only at e1 e1'
  have hsplit : bytes.take n ++ bytes.drop n = bytes := List.take_append_drop n bytes
  rw [e1', e1, List.append_assoc] at hsplit
  obtain ⟨rfl, _, hps⟩ := isHeader_unique isLine_vshMagic e2' e2 hsplit
  have hpre := recsBytes_prefix hl' hl hps
  refine ⟨rfl, rfl, rfl, rfl, rfl, rfl, rfl, ?_⟩
  obtain ⟨t, rfl⟩ := hpre
  show vAddVals r h' (expandV ps') 0 <+: vAddVals r h' (expandV (ps' ++ t)) 0
  rw [expandV_append, vAddVals_append]
  exact List.prefix_append _ _

/-- C24 (failure side): a prefix that cuts into the header, ends inside a record or meets a read error
    is rejected; equivalently an accepted prefix is the header and a whole number of records. -/
theorem vsh_truncated_rejected [FloatText F] (hb : Bytes) (h : Header F) (ps : List (BitVec 32 × Nat))
    (hh : IsHeader vshMagic h hb) (hl : LegalRecs ps) (r : Region) (n : Nat) (clean : Bool)
    (hr : ∃ b : VShell F, VShell.read ⟨(hb ++ recsBytes ps).take n, clean⟩ r = some b) :
    clean = true ∧ ∃ qs, qs <+: ps ∧ (hb ++ recsBytes ps).take n = hb ++ recsBytes qs := by
  obtain ⟨b, hr⟩ := hr
  obtain ⟨_, hc, h', hb', ps', e1', e2', _, hl', hlen', rfl⟩ := (vsh_read_iff _ r b).mp hr
  simp only at e1' hc
  have hsplit := List.take_append_drop n (hb ++ recsBytes ps)
  rw [e1', List.append_assoc] at hsplit
  obtain ⟨rfl, rfl, hps⟩ := isHeader_unique isLine_vshMagic e2' hh hsplit
  exact ⟨hc, ps', recsBytes_prefix hl' hl hps, e1'⟩

/-! ## C11 for vsh: write errors -/

/-- `Write` of a shell reports success iff the file could be created and closed and every one of the
    data write calls succeeded; only the outcome of the first call, the header, is ignored. -/
theorem vsh_write_reports_iff [FloatText F] (b : VShell F) (hne : b.Voxels ≠ []) (env : FileEnv) (r : Region) :
    let calls := (vEncodeRuns b.Voxels (vshLookup b.Voxels) (writeRegion b.NX b.NY b.NZ r)).flatMap vRunCalls
    (b.Write env r).2 = true ↔ env.createOk = true ∧ env.closeOk = true ∧
      ∀ i < calls.length, ∀ k, env.plan[i + 1]? ≠ some (WOut.fail k) := by
  intro calls
  have hl : b.Voxels.length ≠ 0 := by simpa using hne
  unfold VShell.Write
  cases hc : env.createOk
  · simp
  simp only [Bool.not_true, Bool.false_eq_true, if_false, VShell.write, hl, true_and]
  have hplan : ∀ hd : Bytes, ∀ i, (Sink.write ⟨[], env.plan⟩ hd).1.plan[i]? = env.plan[i + 1]? := by
    intro hd i
    unfold Sink.write
    rcases hp : env.plan with _ | ⟨o, p⟩
    · simp
    · cases o <;> simp
  have h := writeAll_ok_iff (Sink.write ⟨[], env.plan⟩ (headerBytes vshMagic
      (writeRegion b.NX b.NY b.NZ r).cx (writeRegion b.NX b.NY b.NZ r).cy
      (writeRegion b.NX b.NY b.NZ r).cz b.TX b.TY b.TZ b.Scale)).1 calls
  simp only [hplan] at h
  rw [← h]
  generalize Sink.writeAll _ calls = res
  obtain ⟨w, ok⟩ := res
  cases ok <;> simp

/-- C57 for a shell without voxels: only the header is written, and its failure is not reported. -/
theorem vsh_write_reports_empty [FloatText F] (b : VShell F) (he : b.Voxels = []) (env : FileEnv) (r : Region) :
    (b.Write env r).2 = true ↔ env.createOk = true ∧ env.closeOk = true := by
  unfold VShell.Write VShell.write
  cases hc : env.createOk
  · simp
  · simp [he]

/-- C57 is violated: the header write fails after 0 bytes and `Write` still reports success; the file then
    holds the records without a header. -/
theorem vsh_header_error_ignored [FloatText F] (b : VShell F) (hne : b.Voxels ≠ []) (r : Region) :
    (b.Write ⟨true, [WOut.fail 0], true⟩ r).2 = true := by
  exact (vsh_write_reports_iff b hne _ r).mpr ⟨rfl, rfl, fun i _ k => by simp⟩

/-! ## C12 for vsh: the encoder goroutine -/

theorem vshEncoder_rest (vs : List VShVoxel) (lk : GoMap Key Nat) (ks : List Key) (s : VEncState) :
    (ks.foldl (fun s k => vEncodeStep s (vshValue vs lk k)) s).finish =
      s.sent ++ (vshEncoder vs lk).rest (s.value, s.count) ks := by
  induction ks generalizing s with
  | nil =>
    simp only [List.foldl_nil, Producer.rest, vshEncoder, VEncState.finish]
    split <;> simp <;> omega
  | cons k ks ih =>
    rw [List.foldl_cons, Producer.rest, ih]
    have hstep : vEncodeStep s (vshValue vs lk k) =
        ⟨((vshEncoder vs lk).step (s.value, s.count) k).1.1,
          ((vshEncoder vs lk).step (s.value, s.count) k).1.2,
          s.sent ++ ((vshEncoder vs lk).step (s.value, s.count) k).2.toList⟩ := by
      unfold vEncodeStep vshEncoder
      dsimp only
      generalize vshValue vs lk k = nv
      by_cases h : nv = s.value
      · simp [h]
      · by_cases hn : s.count > 0
        · simp [h, hn]
        · simp [h, hn]
    rw [hstep]
    simp

/-- C12 for vsh: in every reachable state of every schedule of encoder goroutine and writer the writer
    has received a prefix of the runs; when its loop ends it has all of them; before that no state is
    stuck. -/
theorem vsh_channel_safe (vs : List VShVoxel) (lk : GoMap Key Nat) (r : Region) (cap : Nat) (hcap : 0 < cap)
    (c : PC (BitVec 32 × Nat) Key (BitVec 32 × Nat))
    (h : PCReach (vshEncoder vs lk) cap (PC.init (0#32, 0) (cells r)) c) :
    c.got <+: vEncodeRuns vs lk r ∧ c.buf.length ≤ cap ∧
      (c.done = true → c.got = vEncodeRuns vs lk r ∧ c.buf = [] ∧ c.phase = .closed) ∧
      (c.done = false → ∃ c', PCStep (vshEncoder vs lk) cap c c') := by
  have e : (vshEncoder vs lk).rest (0#32, 0) (cells r) = vEncodeRuns vs lk r := by
    have := vshEncoder_rest vs lk (cells r) ⟨0#32, 0, []⟩
    rw [List.nil_append] at this
    exact this.symm
  obtain ⟨h1, h2, h3⟩ := h.inv
  rw [e] at h1
  refine ⟨⟨c.buf ++ c.future (vshEncoder vs lk), by rw [← h1, List.append_assoc]⟩, h2, ?_,
    fun hnd => PC.progress hcap hnd⟩
  intro hd
  obtain ⟨hb, hp⟩ := h3 hd
  rw [hb] at h1
  simp only [PC.future, hp, List.append_nil] at h1
  exact ⟨h1, hb, hp⟩

/-! ## More examples: the theorems above on `exVsh` -/

theorem exVsh_ne : exVsh.Voxels ≠ [] := by decide
theorem exVsh_in : ∀ w ∈ exVsh.Voxels, InDims exVsh.NX exVsh.NY exVsh.NZ w.key := by
  intro w hw
  have : w = ⟨1, 2, 0, 5#32⟩ ∨ w = ⟨0, 0, 1, 0x7ffffff#32⟩ := by simpa [exVsh] using hw
  rcases this with rfl | rfl <;> (unfold InDims VShVoxel.key exVsh; norm_num)
theorem exVsh_short (b : VShell ℚ) (h : b.NX = 2 ∧ b.NY = 3 ∧ b.NZ = 2) :
    NoLongRun ((cells ⟨0, 0, 0, b.NX, b.NY, b.NZ⟩).map (valueAt b)) := by
  refine noLongRun_of_length ?_
  rw [List.length_map, cells_length, h.1, h.2.1, h.2.2]
  decide

example := vsh_write_exact exVsh exVsh_ne wholeRegion
example := vsh_write_faithful_iff exVsh exVsh_ne wholeRegion
example := vsh_write_region_read exVsh exVsh_ne ⟨0, 1, 0, 1, 2, 2⟩

/-- What `Write` stores of `exVsh`. -/
def exVshFile : Bytes := (exVsh.write ⟨[], []⟩ wholeRegion).1.out

theorem exVshFile_read : ∃ b : VShell ℚ, VShell.read ⟨exVshFile, true⟩ wholeRegion = some b ∧ b.NX = 2 ∧ b.NY = 3 ∧ b.NZ = 2 ∧
    b.Voxels.Perm exVsh.Voxels := by
  obtain ⟨file, b, h1, h2, h3, h4, h5, -, -, -, -, h6⟩ := vsh_roundtrip exVsh exVsh_ne (by decide) (by decide) (by decide)
    exVsh_in (by decide) (by decide) (exVsh_short exVsh ⟨rfl, rfl, rfl⟩) ⟨true, [], true⟩ rfl (fun _ h => (List.not_mem_nil h).elim) rfl
  have e : file = exVshFile := by
    unfold VShell.Write at h1
    simp only at h1
    exact (Option.some.inj (congrArg Prod.fst h1)).symm
  rw [e] at h2
  exact ⟨b, h2, h3, h4, h5, h6⟩

/-- `vsh_read_voxels`, `vsh_read_truncated` and `vsh_truncated_rejected` on this file. -/
example : ∃ (b : VShell ℚ) (h : Header ℚ) (hb : Bytes) (ps : List (BitVec 32 × Nat)), VShell.read ⟨exVshFile, true⟩ wholeRegion = some b ∧
    exVshFile = hb ++ recsBytes ps ∧ IsHeader vshMagic h hb ∧ LegalRecs ps ∧ 0 < h.nx ∧ 0 < h.ny ∧ 0 < h.nz ∧
    (∀ n b', VShell.read (F := ℚ) ⟨exVshFile.take n, true⟩ wholeRegion = some b' → b'.Voxels <+: b.Voxels) ∧
    ∃ n b', n < exVshFile.length ∧ VShell.read (F := ℚ) ⟨exVshFile.take n, true⟩ wholeRegion = some b' := by
  obtain ⟨b, hb, e1, e2, e3, hv⟩ := exVshFile_read
  obtain ⟨-, -, h, hd, ps, h1, h2, h3, h4, -⟩ := (vsh_read_accepts_iff (F := ℚ) ⟨exVshFile, true⟩ wholeRegion).mp ⟨b, hb⟩
  replace h1 : exVshFile = hd ++ recsBytes ps := h1
  have hdim : 0 < h.nx ∧ 0 < h.ny ∧ 0 < h.nz := by
    obtain ⟨-, -, h', hd', ps', h1', h2', -, -, -, rfl⟩ := (vsh_read_iff _ _ b).mp hb
    obtain ⟨e, -⟩ := isHeader_unique isLine_vshMagic h2 h2' (h1.symm.trans h1')
    subst e
    change h.nx = 2 at e1
    change h.ny = 3 at e2
    change h.nz = 2 at e3
    omega
  have hk := (vsh_read_voxels _ _ b h hd ps h1 h2 h4 hb hdim.1 hdim.2.1 hdim.2.2).2.2
  refine ⟨b, h, hd, ps, hb, h1, h2, h4, hdim.1, hdim.2.1, hdim.2.2, fun n b' hb' => (vsh_read_truncated _ _ b hb n true b' hb').2.2.2.2.2.2.2, ?_⟩
  have hps : ps ≠ [] := by
    rintro rfl
    have hm := hv.mem_iff.mpr (show (⟨1, 2, 0, 5#32⟩ : VShVoxel) ∈ exVsh.Voxels by simp [exVsh])
    have := ((hk _).mp hm).2.2.2
    simp [expandV] at this
  obtain ⟨b', hb'⟩ := (vsh_read_accepts_iff (F := ℚ) ⟨exVshFile.take hd.length, true⟩ wholeRegion).mpr ⟨by decide, rfl, h, hd, [], by
    show exVshFile.take hd.length = _
    rw [h1, List.take_left']
    · simp [recsBytes]
    · rfl, h2, h3, by unfold LegalRecs; simp, by simp⟩
  have := vsh_truncated_rejected hd h ps h2 h4 wholeRegion hd.length true (by rw [← h1]; exact ⟨b', hb'⟩)
  refine ⟨hd.length, b', ?_, hb'⟩
  rw [h1, List.length_append]
  cases ps with
  | nil => exact absurd rfl hps
  | cons p ps =>
    have : 0 < (recsBytes (p :: ps)).length := by
      rw [recsBytes, List.flatMap_cons, List.length_append, recBytes, List.length_append]
      have : (le32 p.1).length = 4 := rfl
      omega
    omega

example := vsh_roundtrip_empty ({ exVsh with Voxels := [] }) rfl wholeRegion
/-- A shell with a voxel that has no neighbour at all. -/
example := vsh_special_lost ({ exVsh with Voxels := [⟨1, 2, 0, 5#32⟩, ⟨0, 0, 0, 0#32⟩] } : VShell ℚ) (by decide) (by decide) (by decide)
  (by decide) (exVsh_short _ ⟨rfl, rfl, rfl⟩) ⟨0, 0, 0, 0#32⟩ (by simp) (by unfold Special; decide)
example := vsh_long_run_moves_voxel (F := ℚ) 5#32 (by decide) 0 0 0 1 131072 (by decide) (by decide) (by decide)
example := vsh_write_reports_iff exVsh exVsh_ne ⟨true, [.full, .full, .fail 3], true⟩ wholeRegion
example := vsh_write_reports_empty ({ exVsh with Voxels := [] }) rfl ⟨true, [.fail 0], false⟩ wholeRegion
example := vsh_header_error_ignored exVsh exVsh_ne wholeRegion
example := vsh_channel_safe exVsh.Voxels [] ⟨0, 0, 0, 2, 3, 2⟩ 10 (by decide) _
  (.tail (.refl _) (.work (i := ⟨0, 0, 0⟩) (is := (cells ⟨0, 0, 0, 2, 3, 2⟩).tail) (s' := (0#32, 1)) rfl rfl rfl))

end StlDice
