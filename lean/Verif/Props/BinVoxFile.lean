import Verif.Lemmas.KeyAt
import Verif.Lemmas.RatText
import Verif.Props.BinVoxMap

/-! # C03 – C11: binvox files -/

namespace StlDice
open Spec
variable {F : Type}

/-- Small model used in the non-vacuity examples: 2×3×2 with three voxels, one outside. -/
def exModel : BinVOX ℚ :=
  { NX := 2, NY := 3, NZ := 2, TX := 1/2, TY := -3, TZ := 7, Scale := 6,
    WhiteVoxels := some [(⟨1, 2, 0⟩, ()), (⟨0, 0, 1⟩, ()), (⟨5, 0, 0⟩, ())], ColorVoxels := none }

/-! ## C04 -/

/-- C04: for a model with white voxels and any region, a fully successful write leaves the header
    followed by (value, count) pairs: values 0/1, counts 1..255 adding up to the number of cells of
    the region, whose expansion lists the presence of the voxels with y fastest, then z, then x;
    adjacent pairs share a value only after a full 255. -/
theorem write_wellformed [FloatText F] (b : BinVOX F) (hne : b.white ≠ []) (r : Region) :
    let r' := writeRegion b.NX b.NY b.NZ r
    ∃ ps, (b.write ⟨[], []⟩ r).1.out =
        headerBytes binvoxMagic r'.cx r'.cy r'.cz b.TX b.TY b.TZ b.Scale ++ pairBytes ps ∧
      LegalPairs ps ∧
      (expand ps).length = r'.cx.toNat * r'.cz.toNat * r'.cy.toNat ∧
      (∀ i < r'.cx.toNat * r'.cz.toNat * r'.cy.toNat,
        ((expand ps)[i]? = some 1 ↔
          Vox b ((keyAt r'.cy.toNat r'.cz.toNat i).shift r'.sx r'.sy r'.sz))) ∧
      List.IsChain (fun p q : UInt8 × UInt8 => p.1 = q.1 → p.2 = 255) ps := by
  intro r'
  have hl : b.white.length ≠ 0 := by simpa using hne
  refine ⟨(encodeRuns b.white r').flatMap runPairs, ?_, legal_runsPairs _ _, ?_, ?_, ?_⟩
  · simp only [BinVOX.write, hl, if_false, Sink.write, List.nil_append]
    rw [← runsBytes_eq]
    rfl
  · rw [expand_runsPairs, encodeRuns_expand, List.length_map, cells_length]
  · intro i hi
    rw [expand_runsPairs, encodeRuns_expand, cells_eq, List.map_map, List.getElem?_map,
      List.getElem?_range hi]
    simp only [Option.map_some, Function.comp, Option.some.injEq, Vox]
    split <;> simp_all
  · exact canonical_runsPairs _ (fun p hp => ((encodeRuns_inv b.white r').1 p hp).2)
      (encodeRuns_inv b.white r').2

/-- C04: the number reported is the number of white voxels in the region. -/
theorem write_count [FloatText F] (b : BinVOX F) (hne : b.white ≠ []) (hwf : b.white.WF)
    (r : Region) :
    (b.write ⟨[], []⟩ r).2 = some ((b.white.keys.filter (fun k =>
      let r' := writeRegion b.NX b.NY b.NZ r
      decide (r'.sx ≤ k.X ∧ k.X < r'.sx + r'.cx ∧ r'.sy ≤ k.Y ∧ k.Y < r'.sy + r'.cy ∧
        r'.sz ≤ k.Z ∧ k.Z < r'.sz + r'.cz))).length : Int) := by
  have hl : b.white.length ≠ 0 := by simpa using hne
  simp only [BinVOX.write, hl, if_false, Sink.write, if_true]
  rw [numWhite_eq, encodeRuns_expand]
  generalize writeRegion b.NX b.NY b.NZ r = r'
  congr 2
  rw [List.count_eq_countP, List.countP_map, List.countP_eq_length_filter]
  apply List.Perm.length_eq
  rw [List.perm_ext_iff_of_nodup ((cells_nodup r').filter _) (hwf.filter _)]
  intro k
  simp only [List.mem_filter, mem_cells, InHalfOpen, Function.comp, GoMap.mem_keys_iff,
    decide_eq_true_eq, beq_iff_eq]
  by_cases hk : b.white.has k = true
  · simp [hk]
  · simp [hk]

example : exModel.white ≠ [] ∧ exModel.white.WF := by
  refine ⟨by decide, by unfold GoMap.WF; decide⟩

/-! ## C09, C03: round trips -/

/-- The data written for a region reads back as the voxels of the region, shifted. -/
theorem readback_vox [FloatText F] (b : BinVOX F) (h : Header F) (s : Region)
    (hx : 0 ≤ h.nx) (hy : 0 ≤ h.ny) (hz : 0 ≤ h.nz)
    (hc : s.cx = h.nx ∧ s.cy = h.ny ∧ s.cz = h.nz) (k : Key) :
    (addVals wholeRegion h ((cells s).map (fun k => if b.white.has k then (1 : UInt8) else 0)) 0 []).has k
      = true ↔ InDims h.nx h.ny h.nz k ∧ Vox b (k.shift s.sx s.sy s.sz) := by
  rw [addVals_has]
  simp only [GoMap.has_nil, Bool.false_eq_true, false_or, Nat.zero_add]
  rw [cells_eq, List.map_map]
  have hreg : ∀ k : Key, InDims h.nx h.ny h.nz k → inRegion wholeRegion h ⟨k.X, k.Y, k.Z⟩ = true := by
    intro k hk
    obtain ⟨a1, a2, a3, a4, a5, a6⟩ := hk
    simp only [inRegion, wholeRegion, clampCount, true_or, if_true, Bool.and_eq_true,
      decide_eq_true_eq]
    refine ⟨⟨⟨⟨⟨?_, ?_⟩, ?_⟩, ?_⟩, ?_⟩, ?_⟩ <;> first | omega | exact decide_eq_true (by omega)
  constructor
  · rintro ⟨j, h1, h2, h3⟩
    rw [List.getElem?_map] at h1
    have hj : j < s.cx.toNat * s.cz.toNat * s.cy.toNat := by
      by_contra hge
      rw [List.getElem?_eq_none (by simpa using hge)] at h1; simp at h1
    rw [List.getElem?_range hj] at h1
    simp only [Option.map_some, Function.comp, Option.some.injEq] at h1
    have py : 0 < s.cy.toNat := by
      rcases Nat.eq_zero_or_pos s.cy.toNat with e | e
      · rw [e] at hj; omega
      · exact e
    have pz : 0 < s.cz.toNat := by
      rcases Nat.eq_zero_or_pos s.cz.toNat with e | e
      · rw [e] at hj; simp at hj
      · exact e
    have e1 : effDim h.ny = s.cy.toNat := by unfold effDim; rw [← hc.2.1]; omega
    have e2 : effDim h.nz = s.cz.toNat := by unfold effDim; rw [← hc.2.2]; omega
    rw [e1, e2] at h2
    refine ⟨?_, ?_⟩
    · have := (exists_keyAt (nx := s.cx.toNat) py pz k).mp ⟨j, hj, h2⟩
      have i1 : ((s.cx.toNat : Nat) : Int) = h.nx := by rw [← hc.1]; omega
      have i2 : ((s.cy.toNat : Nat) : Int) = h.ny := by rw [← hc.2.1]; omega
      have i3 : ((s.cz.toNat : Nat) : Int) = h.nz := by rw [← hc.2.2]; omega
      rw [i1, i2, i3] at this; exact this
    · rw [← h2]
      unfold Vox
      by_contra hno
      simp [hno] at h1
  · rintro ⟨hin, hv⟩
    have hin' := hin
    obtain ⟨a1, a2, a3, a4, a5, a6⟩ := hin
    have py : 0 < s.cy.toNat := by rw [hc.2.1]; omega
    have pz : 0 < s.cz.toNat := by rw [hc.2.2]; omega
    have e1 : effDim h.ny = s.cy.toNat := by unfold effDim; rw [← hc.2.1]; omega
    have e2 : effDim h.nz = s.cz.toNat := by unfold effDim; rw [← hc.2.2]; omega
    have : InDims (s.cx.toNat : Nat) (s.cy.toNat : Nat) (s.cz.toNat : Nat) k := by
      unfold InDims; rw [hc.1, hc.2.1, hc.2.2]; omega
    obtain ⟨i, hi, hk⟩ := (exists_keyAt (nx := s.cx.toNat) py pz k).mpr this
    refine ⟨i, ?_, by rw [e1, e2]; exact hk, hreg k hin'⟩
    rw [List.getElem?_map, List.getElem?_range hi]
    simp only [Option.map_some, Function.comp, Option.some.injEq, hk]
    unfold Vox at hv
    simp [hv]

/-- C09 (what the file holds): writing the region with start `s` and counts `c` (0 = all) and
    reading the file back gives a model with dimensions `c`, the model's own translation and scale,
    and exactly the voxels of the half-open region, shifted by `-s`. -/
theorem write_region_read [FloatText F] [LawfulFloatText F] (b : BinVOX F) (hne : b.white ≠ [])
    (r : Region) :
    let r' := writeRegion b.NX b.NY b.NZ r
    (0 ≤ r'.cx ∧ r'.cx ≤ maxInt) → (0 ≤ r'.cy ∧ r'.cy ≤ maxInt) → (0 ≤ r'.cz ∧ r'.cz ≤ maxInt) →
    ∃ b', BinVOX.read ⟨(b.write ⟨[], []⟩ r).1.out, true⟩ wholeRegion = some b' ∧
      b'.NX = r'.cx ∧ b'.NY = r'.cy ∧ b'.NZ = r'.cz ∧
      b'.TX = b.TX ∧ b'.TY = b.TY ∧ b'.TZ = b.TZ ∧ b'.Scale = b.Scale ∧ b'.ColorVoxels = none ∧
      b'.white.WF ∧
      ∀ k, Vox b' k ↔ InDims r'.cx r'.cy r'.cz k ∧ Vox b (k.shift r'.sx r'.sy r'.sz) := by
  intro r' hx hy hz
  have hl : b.white.length ≠ 0 := by simpa using hne
  let h : Header F := ⟨r'.cx, r'.cy, r'.cz, b.TX, b.TY, b.TZ, b.Scale⟩
  let ps := (encodeRuns b.white r').flatMap runPairs
  have hout : (b.write ⟨[], []⟩ r).1.out =
      headerBytes binvoxMagic h.nx h.ny h.nz h.tx h.ty h.tz h.scale ++ pairBytes ps := by
    simp only [BinVOX.write, hl, if_false, Sink.write, List.nil_append, ps, h]
    rw [← runsBytes_eq]
    rfl
  have hexp : expand ps = (cells r').map (fun k => if b.white.has k then (1 : UInt8) else 0) := by
    rw [expand_runsPairs, encodeRuns_expand]
  refine ⟨mkModel h (addVals wholeRegion h (expand ps) 0 []), ?_, rfl, rfl, rfl, rfl, rfl, rfl, rfl,
    rfl, addVals_WF _ _ _ _ _ GoMap.WF_nil, ?_⟩
  · rw [read_iff]
    refine ⟨by decide, rfl, h, _, ps, hout, isHeader_headerBytes binvoxMagic hx.1 hy.1 hz.1 hx.2 hy.2
      hz.2, ⟨hx.1, hy.1, hz.1⟩, legal_runsPairs _ _, ?_, rfl⟩
    rw [hexp, List.length_map, cells_length]
    unfold capacity
    exact Nat.mul_le_mul (Nat.mul_le_mul_left _ (Nat.le_max_left _ _)) (Nat.le_max_left _ _)
  · intro k
    have := readback_vox b h r' hx.1 hy.1 hz.1 ⟨rfl, rfl, rfl⟩ k
    rw [hexp]
    exact this

/-- C03: the whole-model round trip. -/
theorem write_read_roundtrip [FloatText F] [LawfulFloatText F] (b : BinVOX F) (hne : b.white ≠ [])
    (hx : 0 ≤ b.NX ∧ b.NX ≤ maxInt) (hy : 0 ≤ b.NY ∧ b.NY ≤ maxInt) (hz : 0 ≤ b.NZ ∧ b.NZ ≤ maxInt)
    (env : FileEnv) (hc : env.createOk = true) (hp : ∀ o ∈ env.plan, o = WOut.full)
    (hcl : env.closeOk = true) :
    ∃ file b', b.Write env wholeRegion = (some file, true) ∧
      BinVOX.Read (some ⟨file, true⟩) wholeRegion = some b' ∧
      b'.NX = b.NX ∧ b'.NY = b.NY ∧ b'.NZ = b.NZ ∧ b'.TX = b.TX ∧ b'.TY = b.TY ∧ b'.TZ = b.TZ ∧
      b'.Scale = b.Scale ∧ ∀ k, Vox b' k ↔ Vox b k ∧ InDims b.NX b.NY b.NZ k := by
  have e : writeRegion b.NX b.NY b.NZ wholeRegion = ⟨0, 0, 0, b.NX, b.NY, b.NZ⟩ := rfl
  have h := write_region_read b hne wholeRegion
  simp only [e] at h
  obtain ⟨b', hr, h1, h2, h3, h4, h5, h6, h7, _, _, hv⟩ := h hx hy hz
  refine ⟨(b.write ⟨[], []⟩ wholeRegion).1.out, b', ?_, hr, h1, h2, h3, h4, h5, h6, h7, ?_⟩
  · have hl : b.white.length ≠ 0 := by simpa using hne
    unfold BinVOX.Write
    rw [hc, hcl]
    rcases hplan : env.plan with _ | ⟨o1, _ | ⟨o2, p⟩⟩
    · simp [BinVOX.write, hl, Sink.write]
    · have := hp o1 (by simp [hplan]); subst this
      simp [BinVOX.write, hl, Sink.write]
    · have := hp o1 (by simp [hplan]); subst this
      have := hp o2 (by simp [hplan]); subst this
      simp [BinVOX.write, hl, Sink.write]
  · intro k
    rw [hv]
    have : k.shift 0 0 0 = k := by simp [Key.shift]
    rw [this]; exact And.comm

/-- C03: a model without white voxels is written as a 0×0×0 file that reads back empty. -/
theorem write_read_empty [FloatText F] [LawfulFloatText F] (b : BinVOX F) (he : b.white = [])
    (r : Region) :
    ∃ b', BinVOX.read ⟨(b.write ⟨[], []⟩ r).1.out, true⟩ wholeRegion = some b' ∧
      (b.write ⟨[], []⟩ r).2 = some 0 ∧ b'.NX = 0 ∧ b'.NY = 0 ∧ b'.NZ = 0 ∧ b'.TX = b.TX ∧ b'.TY = b.TY ∧
      b'.TZ = b.TZ ∧ b'.Scale = b.Scale ∧ ∀ k, ¬ Vox b' k := by
  let h : Header F := ⟨0, 0, 0, b.TX, b.TY, b.TZ, b.Scale⟩
  refine ⟨mkModel h (addVals wholeRegion h (expand []) 0 []), ?_, ?_, rfl, rfl, rfl, rfl, rfl, rfl, rfl, ?_⟩
  · rw [read_iff]
    refine ⟨by decide, rfl, h, headerBytes binvoxMagic 0 0 0 b.TX b.TY b.TZ b.Scale, [], ?_, ?_,
      ⟨le_refl _, le_refl _, le_refl _⟩, by simp [LegalPairs], by simp [expand], rfl⟩
    · simp [BinVOX.write, he, Sink.write, pairBytes]
    · have m : (0 : Int) ≤ maxInt := by decide
      exact isHeader_headerBytes binvoxMagic (h := h) (le_refl _) (le_refl _) (le_refl _) m m m
  · simp [BinVOX.write, he]
  · intro k hk
    have : GoMap.has ([] : WhiteVoxelMap) k = true := hk
    simp at this

example : exModel.white ≠ [] ∧ (0 ≤ exModel.NX ∧ exModel.NX ≤ maxInt) ∧
    (0 ≤ exModel.NY ∧ exModel.NY ≤ maxInt) ∧ (0 ≤ exModel.NZ ∧ exModel.NZ ≤ maxInt) := by decide

/-- World position of the corner of voxel `k`: translation plus index times pitch
    (pitch = 1 / VoxelsPerMM). -/
def Spec.worldPos (b : BinVOX ℚ) (k : Key) : ℚ × ℚ × ℚ :=
  (b.TX + k.X / b.VoxelsPerMM, b.TY + k.Y / b.VoxelsPerMM, b.TZ + k.Z / b.VoxelsPerMM)

theorem worldPos_eq_iff (b b' : BinVOX ℚ) (hs : 0 < b.Scale) (hd : 0 < b.Dim) (h4 : b'.TX = b.TX)
    (h5 : b'.TY = b.TY) (h6 : b'.TZ = b.TZ) (h7 : b'.Scale = b.Scale) (hdim : b'.Dim = b.Dim)
    (k k' : Key) : worldPos b' k' = worldPos b k ↔ k' = k := by
  have hv : b'.VoxelsPerMM = b.VoxelsPerMM := by
    rw [(voxelsPerMM_eq b').1 (by rw [h7]; exact hs), (voxelsPerMM_eq b).1 hs, h7, hdim]
  have hp : b.VoxelsPerMM ≠ 0 := by
    rw [(voxelsPerMM_eq b).1 hs]
    have : (0 : ℚ) < b.Dim := by exact_mod_cast hd
    positivity
  unfold worldPos
  rw [hv, h4, h5, h6]
  simp only [Prod.mk.injEq, add_right_inj]
  rw [div_left_inj' hp, div_left_inj' hp, div_left_inj' hp]
  obtain ⟨x, y, z⟩ := k
  obtain ⟨x', y', z'⟩ := k'
  simp only [Key.mk.injEq]
  norm_cast

/-- C09 (where the voxels end up): when the largest count written equals the model's largest
    dimension, a voxel keeps its world position iff the start is 0 — the translation in the file is
    not moved by the start. -/
theorem write_region_world_same_pitch (b : BinVOX ℚ) (hne : b.white ≠ []) (r : Region)
    (hs : 0 < b.Scale) (hd : 0 < b.Dim) (k : Key) :
    let r' := writeRegion b.NX b.NY b.NZ r
    (0 ≤ r'.cx ∧ r'.cx ≤ maxInt) → (0 ≤ r'.cy ∧ r'.cy ≤ maxInt) → (0 ≤ r'.cz ∧ r'.cz ≤ maxInt) →
    BinVOX.dimOf r'.cx r'.cy r'.cz = b.Dim → InHalfOpen r' k → Vox b k →
    ∃ b', BinVOX.read ⟨(b.write ⟨[], []⟩ r).1.out, true⟩ wholeRegion = some b' ∧
      Vox b' (k.shift (-r.sx) (-r.sy) (-r.sz)) ∧
      (worldPos b' (k.shift (-r.sx) (-r.sy) (-r.sz)) = worldPos b k ↔
        r.sx = 0 ∧ r.sy = 0 ∧ r.sz = 0) := by
  intro r' hx hy hz hdim hin hv
  obtain ⟨b', hr, h1, h2, h3, h4, h5, h6, h7, _, _, hvox⟩ := write_region_read b hne r hx hy hz
  refine ⟨b', hr, ?_, ?_⟩
  · rw [hvox]
    have e : (k.shift (-r.sx) (-r.sy) (-r.sz)).shift (writeRegion b.NX b.NY b.NZ r).sx
      (writeRegion b.NX b.NY b.NZ r).sy (writeRegion b.NX b.NY b.NZ r).sz = k := by
      obtain ⟨x, y, z⟩ := k
      simp only [Key.shift, writeRegion, Key.mk.injEq]; omega
    rw [e]
    refine ⟨?_, hv⟩
    obtain ⟨a1, a2, a3, a4, a5, a6⟩ := hin
    have s1 : r'.sx = r.sx := rfl
    have s2 : r'.sy = r.sy := rfl
    have s3 : r'.sz = r.sz := rfl
    show InDims r'.cx r'.cy r'.cz _
    unfold InDims Key.shift
    dsimp only
    omega
  · rw [worldPos_eq_iff b b' hs hd h4 h5 h6 h7 (by
      unfold BinVOX.Dim at *; rw [h1, h2, h3]; exact hdim)]
    obtain ⟨x, y, z⟩ := k
    simp only [Key.shift, Key.mk.injEq]
    omega

/-- C09: with start 0 but another largest count, the file's pitch changes: the file's voxels per mm
    are (largest count)/Scale, so a voxel keeps its position iff its index is 0. -/
theorem write_region_pitch (b : BinVOX ℚ) (hne : b.white ≠ []) (r : Region)
    (hs : 0 < b.Scale) (hd : 0 < b.Dim) (k : Key) :
    let r' := writeRegion b.NX b.NY b.NZ r
    (0 ≤ r'.cx ∧ r'.cx ≤ maxInt) → (0 ≤ r'.cy ∧ r'.cy ≤ maxInt) → (0 ≤ r'.cz ∧ r'.cz ≤ maxInt) →
    0 < BinVOX.dimOf r'.cx r'.cy r'.cz → BinVOX.dimOf r'.cx r'.cy r'.cz ≠ b.Dim →
    ∃ b', BinVOX.read ⟨(b.write ⟨[], []⟩ r).1.out, true⟩ wholeRegion = some b' ∧
      b'.VoxelsPerMM = (BinVOX.dimOf r'.cx r'.cy r'.cz : ℚ) / b.Scale ∧
      (worldPos b' k = worldPos b k ↔ k = ⟨0, 0, 0⟩) := by
  intro r' hx hy hz hpos hdim
  obtain ⟨b', hr, h1, h2, h3, h4, h5, h6, h7, _, _, hvox⟩ := write_region_read b hne r hx hy hz
  have hv : b'.VoxelsPerMM = (BinVOX.dimOf r'.cx r'.cy r'.cz : ℚ) / b.Scale := by
    rw [(voxelsPerMM_eq b').1 (by rw [h7]; exact hs), h7]
    unfold BinVOX.Dim; rw [h1, h2, h3]
  refine ⟨b', hr, hv, ?_⟩
  have hd1 : (0 : ℚ) < b.Dim := by exact_mod_cast hd
  have hd2 : (0 : ℚ) < BinVOX.dimOf r'.cx r'.cy r'.cz := by exact_mod_cast hpos
  have hdq : (BinVOX.dimOf r'.cx r'.cy r'.cz : ℚ) ≠ b.Dim := by exact_mod_cast hdim
  generalize (BinVOX.dimOf r'.cx r'.cy r'.cz : ℚ) = D at *
  unfold worldPos
  rw [hv, (voxelsPerMM_eq b).1 hs, h4, h5, h6]
  simp only [Prod.mk.injEq, add_right_inj]
  have aux : ∀ i : Int, ((i : ℚ) / (D / b.Scale) = i / (b.Dim / b.Scale)) ↔ i = 0 := by
    intro i
    constructor
    · intro he
      field_simp at he
      by_contra hi
      have hi : (i : ℚ) ≠ 0 := by exact_mod_cast hi
      have : (b.Dim : ℚ) = D := by
        exact mul_left_cancel₀ hi (by linarith)
      exact hdq this.symm
    · rintro rfl; simp
  rw [aux, aux, aux]
  obtain ⟨x, y, z⟩ := k
  simp only [Key.mk.injEq]

/-- C09 (where the voxels end up, in general): a voxel of the region keeps its world position iff in
    each direction (index − start) · (largest dimension of the model) = index · (largest count written):
    the file keeps the model's translation and scale, whatever the region. -/
theorem write_region_world (b : BinVOX ℚ) (hne : b.white ≠ []) (r : Region)
    (hs : 0 < b.Scale) (hd : 0 < b.Dim) (k : Key) :
    let r' := writeRegion b.NX b.NY b.NZ r
    (0 ≤ r'.cx ∧ r'.cx ≤ maxInt) → (0 ≤ r'.cy ∧ r'.cy ≤ maxInt) → (0 ≤ r'.cz ∧ r'.cz ≤ maxInt) →
    InHalfOpen r' k → Vox b k →
    ∃ b', BinVOX.read ⟨(b.write ⟨[], []⟩ r).1.out, true⟩ wholeRegion = some b' ∧
      Vox b' (k.shift (-r.sx) (-r.sy) (-r.sz)) ∧
      (worldPos b' (k.shift (-r.sx) (-r.sy) (-r.sz)) = worldPos b k ↔
        (k.X - r.sx) * b.Dim = k.X * BinVOX.dimOf r'.cx r'.cy r'.cz ∧
        (k.Y - r.sy) * b.Dim = k.Y * BinVOX.dimOf r'.cx r'.cy r'.cz ∧
        (k.Z - r.sz) * b.Dim = k.Z * BinVOX.dimOf r'.cx r'.cy r'.cz) := by
  intro r' hx hy hz hin hv
  obtain ⟨b', hr, h1, h2, h3, h4, h5, h6, h7, _, _, hvox⟩ := write_region_read b hne r hx hy hz
  refine ⟨b', hr, ?_, ?_⟩
  · rw [hvox]
    have e : (k.shift (-r.sx) (-r.sy) (-r.sz)).shift (writeRegion b.NX b.NY b.NZ r).sx
      (writeRegion b.NX b.NY b.NZ r).sy (writeRegion b.NX b.NY b.NZ r).sz = k := by
      obtain ⟨x, y, z⟩ := k
      simp only [Key.shift, writeRegion, Key.mk.injEq]; omega
    rw [e]
    refine ⟨?_, hv⟩
    obtain ⟨a1, a2, a3, a4, a5, a6⟩ := hin
    have s1 : r'.sx = r.sx := rfl
    have s2 : r'.sy = r.sy := rfl
    have s3 : r'.sz = r.sz := rfl
    show InDims r'.cx r'.cy r'.cz _
    unfold InDims Key.shift
    dsimp only
    omega
  · have hpos : 0 < BinVOX.dimOf r'.cx r'.cy r'.cz := by
      obtain ⟨a1, a2, a3, a4, a5, a6⟩ := hin
      have : r'.cx ≤ BinVOX.dimOf r'.cx r'.cy r'.cz := by
        unfold BinVOX.dimOf
        dsimp only
        split <;> split <;> omega
      omega
    have hv' : b'.VoxelsPerMM = (BinVOX.dimOf r'.cx r'.cy r'.cz : ℚ) / b.Scale := by
      rw [(voxelsPerMM_eq b').1 (by rw [h7]; exact hs), h7]
      unfold BinVOX.Dim; rw [h1, h2, h3]
    have hd1 : (0 : ℚ) < b.Dim := by exact_mod_cast hd
    have hd2 : (0 : ℚ) < BinVOX.dimOf r'.cx r'.cy r'.cz := by exact_mod_cast hpos
    have aux : ∀ i s : Int, (((i + -s : Int) : ℚ) / ((BinVOX.dimOf r'.cx r'.cy r'.cz : ℚ) / b.Scale) =
        i / (b.Dim / b.Scale)) ↔ (i - s) * b.Dim = i * BinVOX.dimOf r'.cx r'.cy r'.cz := by
      intro i s
      generalize BinVOX.dimOf r'.cx r'.cy r'.cz = D at *
      rw [div_eq_div_iff (by positivity) (by positivity), ← mul_div_assoc, ← mul_div_assoc,
        div_left_inj' (ne_of_gt hs)]
      constructor
      · intro h
        have : (((i - s) * b.Dim : Int) : ℚ) = ((i * D : Int) : ℚ) := by push_cast at h ⊢; linarith
        exact_mod_cast this
      · intro h
        have : (((i - s) * b.Dim : Int) : ℚ) = ((i * D : Int) : ℚ) := by exact_mod_cast h
        push_cast at this ⊢; linarith
    unfold worldPos
    rw [hv', (voxelsPerMM_eq b).1 hs, h4, h5, h6]
    simp only [Prod.mk.injEq, add_right_inj, Key.shift]
    rw [aux, aux, aux]

/-! ## C05 -/

/-- C05: the writer's output and result depend only on the header fields and the set of white
    voxels — not on the order of the map's entries — for every region and every writer. -/
theorem write_order_independent [FloatText F] (b b' : BinVOX F)
    (hd : b'.NX = b.NX ∧ b'.NY = b.NY ∧ b'.NZ = b.NZ)
    (ht : b'.TX = b.TX ∧ b'.TY = b.TY ∧ b'.TZ = b.TZ ∧ b'.Scale = b.Scale)
    (hv : ∀ k, Vox b' k ↔ Vox b k) (w : Sink) (r : Region) : b'.write w r = b.write w r := by
  have hh : ∀ k, b'.white.has k = b.white.has k := by
    intro k
    have := hv k
    unfold Vox at this
    cases h1 : b'.white.has k <;> cases h2 : b.white.has k <;> simp_all
  have hnil : ∀ m : WhiteVoxelMap, m.length = 0 ↔ ∀ k, m.has k = false := by
    intro m
    cases m with
    | nil => simp
    | cons e m =>
      simp only [List.length_cons, Nat.add_eq_zero_iff, Nat.one_ne_zero, and_false, false_iff]
      intro h
      have := h e.1
      simp [GoMap.has, GoMap.get_cons] at this
  have hl : b'.white.length = 0 ↔ b.white.length = 0 := by
    rw [hnil, hnil]; exact forall_congr' fun k => by rw [hh]
  have hstep : encodeStep b'.white = encodeStep b.white := by
    funext s k; unfold encodeStep; rw [hh]
  have henc : ∀ r, encodeRuns b'.white r = encodeRuns b.white r := by
    intro r; unfold encodeRuns; rw [hstep]
  unfold BinVOX.write
  rw [ht.1, ht.2.1, ht.2.2.1, ht.2.2.2, hd.1, hd.2.1, hd.2.2]
  by_cases h0 : b.white.length = 0
  · rw [if_pos h0, if_pos (hl.mpr h0)]
  · rw [if_neg h0, if_neg (fun h => h0 (hl.mp h))]
    simp only [henc]

/-- The same voxels entered in another order. -/
def exModel' : BinVOX ℚ :=
  { exModel with WhiteVoxels := some [(⟨5, 0, 0⟩, ()), (⟨1, 2, 0⟩, ()), (⟨0, 0, 1⟩, ())] }

example : ∀ k, Vox exModel k ↔ Vox exModel' k := by
  intro k
  simp only [Vox, BinVOX.white, mapOf, exModel, exModel', Option.getD_some, GoMap.has, GoMap.get_cons, GoMap.get_nil]
  by_cases h1 : (⟨1, 2, 0⟩ : Key) = k <;> by_cases h2 : (⟨0, 0, 1⟩ : Key) = k <;>
    by_cases h3 : (⟨5, 0, 0⟩ : Key) = k <;> simp [h1, h2, h3]

/-! ## C06, C07, C08: the reader -/

/-- C06: the reader returns a model iff the parameters are non-negative, the header is well formed,
    the start lies within the dimensions, the input ends cleanly on a pair boundary, all pairs are
    legal and the described voxels fit the grid. -/
theorem read_accepts_iff [FloatText F] (inp : Input) (r : Region) :
    (∃ b : BinVOX F, BinVOX.read inp r = some b) ↔
      (0 ≤ r.sx ∧ 0 ≤ r.sy ∧ 0 ≤ r.sz ∧ 0 ≤ r.cx ∧ 0 ≤ r.cy ∧ 0 ≤ r.cz) ∧ inp.clean = true ∧
      ∃ (h : Header F) (hb : Bytes) (ps : List (UInt8 × UInt8)),
        inp.bytes = hb ++ pairBytes ps ∧ IsHeader binvoxMagic h hb ∧
        (r.sx ≤ h.nx ∧ r.sy ≤ h.ny ∧ r.sz ≤ h.nz) ∧ LegalPairs ps ∧
        (ps.map (fun p => p.2.toNat)).sum ≤ capacity h := by
  constructor
  · rintro ⟨b, hb⟩
    obtain ⟨h1, h2, h, hb, ps, h3, h4, h5, h6, h7, _⟩ := (read_iff inp r b).mp hb
    exact ⟨(nonneg_iff r).mp h1, h2, h, hb, ps, h3, h4, h5, h6, by rw [← expand_length]; exact h7⟩
  · rintro ⟨h1, h2, h, hb, ps, h3, h4, h5, h6, h7⟩
    exact ⟨_, (read_iff inp r _).mpr
      ⟨(nonneg_iff r).mpr h1, h2, h, hb, ps, h3, h4, h5, h6, by rw [expand_length]; exact h7, rfl⟩⟩

/-- C06: and the header of the model is the one in the file. -/
theorem read_header [FloatText F] (inp : Input) (r : Region) (b : BinVOX F) (h : Header F)
    (hb rest : Bytes) (hbytes : inp.bytes = hb ++ rest) (hh : IsHeader binvoxMagic h hb)
    (hr : BinVOX.read inp r = some b) :
    b.NX = h.nx ∧ b.NY = h.ny ∧ b.NZ = h.nz ∧ b.TX = h.tx ∧ b.TY = h.ty ∧ b.TZ = h.tz ∧
      b.Scale = h.scale ∧ b.ColorVoxels = none := by
  obtain ⟨_, _, h', hb', ps, h3, h4, _, _, _, rfl⟩ := (read_iff inp r b).mp hr
  obtain ⟨rfl, _, _⟩ := isHeader_unique isLine_binvoxMagic h4 hh (h3.symm.trans hbytes)
  exact ⟨rfl, rfl, rfl, rfl, rfl, rfl, rfl, rfl⟩

/-- C07, C08: exactly which voxels a read with any parameters returns, for positive dimensions:
    those inside the dimensions and inside the *closed* box `[s, s+c]` (c = 0 or too large meaning
    the whole dimension) whose value in the data, at index `(x*NZ + z)*NY + y`, is 1. -/
theorem read_vox_iff [FloatText F] (inp : Input) (r : Region) (b : BinVOX F) (h : Header F)
    (hb : Bytes) (ps : List (UInt8 × UInt8)) (hbytes : inp.bytes = hb ++ pairBytes ps)
    (hh : IsHeader binvoxMagic h hb) (hr : BinVOX.read inp r = some b)
    (hx : 0 < h.nx) (hy : 0 < h.ny) (hz : 0 < h.nz) (k : Key) :
    Vox b k ↔ InDims h.nx h.ny h.nz k ∧
      InClosed ⟨r.sx, r.sy, r.sz, clampCount r.cx h.nx, clampCount r.cy h.ny, clampCount r.cz h.nz⟩ k ∧
      (expand ps)[((k.X * h.nz + k.Z) * h.ny + k.Y).toNat]? = some 1 := by
  obtain ⟨_, _, h', hb', ps', h3, h4, _, _, hlen, rfl⟩ := (read_iff inp r b).mp hr
  obtain ⟨rfl, _, hps⟩ := isHeader_unique isLine_binvoxMagic h4 hh (h3.symm.trans hbytes)
  have := pairBytes_injective hps; subst this
  have hvox : Vox (mkModel h' (addVals r h' (expand ps') 0 [])) k ↔
      (addVals r h' (expand ps') 0 []).has k = true := Iff.rfl
  rw [hvox, addVals_has]
  simp only [GoMap.has_nil, Bool.false_eq_true, false_or, Nat.zero_add]
  have py := effDim_pos h'.ny
  have pz := effDim_pos h'.nz
  have ey : ((effDim h'.ny : Nat) : Int) = h'.ny := effDim_of_pos hy
  have ez : ((effDim h'.nz : Nat) : Int) = h'.nz := effDim_of_pos hz
  have hreg : inRegion r h' ⟨k.X, k.Y, k.Z⟩ = true ↔ InClosed ⟨r.sx, r.sy, r.sz,
      clampCount r.cx h'.nx, clampCount r.cy h'.ny, clampCount r.cz h'.nz⟩ k := by
    simp only [inRegion, Bool.and_eq_true, decide_eq_true_eq, InClosed]
    constructor
    · rintro ⟨⟨⟨⟨⟨a, b⟩, c⟩, d⟩, e⟩, f⟩; exact ⟨a, b, c, d, e, f⟩
    · rintro ⟨a, b, c, d, e, f⟩; exact ⟨⟨⟨⟨⟨a, b⟩, c⟩, d⟩, e⟩, f⟩
  rw [hreg]
  constructor
  · rintro ⟨j, h1, h2, h3⟩
    have hk := (keyAt_iff py pz j k).mp h2
    have hj : j < (expand ps').length := by
      by_contra hge
      rw [List.getElem?_eq_none (by omega)] at h1; cases h1
    have hin : InDims h'.nx h'.ny h'.nz k := by
      have := (exists_keyAt (nx := h'.nx.toNat) py pz k).mp ⟨j, by
        rw [← capacity_eq]; omega, h2⟩
      rw [ey, ez] at this
      have e : ((h'.nx.toNat : Nat) : Int) = h'.nx := by omega
      rw [e] at this; exact this
    refine ⟨hin, h3, ?_⟩
    rw [← ey, ← ez, ← hk.2.2.2]
    simpa using h1
  · rintro ⟨hin, h3, h1⟩
    obtain ⟨a1, a2, a3, a4, a5, a6⟩ := hin
    refine ⟨((k.X * h'.nz + k.Z) * h'.ny + k.Y).toNat, h1, ?_, h3⟩
    rw [keyAt_iff py pz, ey, ez]
    refine ⟨a1, ⟨a3, a4⟩, ⟨a5, a6⟩, ?_⟩
    rw [Int.toNat_of_nonneg]
    have : 0 ≤ (k.X * h'.nz + k.Z) * h'.ny :=
      Int.mul_nonneg (Int.add_nonneg (Int.mul_nonneg a1 (by omega)) a5) (by omega)
    omega

/-- C07: the whole-model read. -/
theorem read_whole_vox [FloatText F] (inp : Input) (b : BinVOX F) (h : Header F)
    (hb : Bytes) (ps : List (UInt8 × UInt8)) (hbytes : inp.bytes = hb ++ pairBytes ps)
    (hh : IsHeader binvoxMagic h hb) (hr : BinVOX.read inp wholeRegion = some b)
    (hx : 0 < h.nx) (hy : 0 < h.ny) (hz : 0 < h.nz) (k : Key) :
    Vox b k ↔ InDims h.nx h.ny h.nz k ∧
      (expand ps)[((k.X * h.nz + k.Z) * h.ny + k.Y).toNat]? = some 1 := by
  rw [read_vox_iff inp wholeRegion b h hb ps hbytes hh hr hx hy hz k]
  constructor
  · rintro ⟨h1, _, h3⟩; exact ⟨h1, h3⟩
  · rintro ⟨h1, h3⟩
    refine ⟨h1, ?_, h3⟩
    obtain ⟨a1, a2, a3, a4, a5, a6⟩ := h1
    simp only [InClosed, wholeRegion, clampCount, true_or, if_true]
    omega

/-- C08: a sub-region read succeeds whenever the whole read does and the start lies within the
    dimensions, and returns exactly the voxels of the whole read in the *closed* box: one layer more
    than documented. -/
theorem read_subregion_closed [FloatText F] (inp : Input) (r : Region) (bw : BinVOX F)
    (hw : BinVOX.read inp wholeRegion = some bw)
    (hn : 0 ≤ r.sx ∧ 0 ≤ r.sy ∧ 0 ≤ r.sz ∧ 0 ≤ r.cx ∧ 0 ≤ r.cy ∧ 0 ≤ r.cz)
    (hs : r.sx ≤ bw.NX ∧ r.sy ≤ bw.NY ∧ r.sz ≤ bw.NZ)
    (hx : 0 < bw.NX) (hy : 0 < bw.NY) (hz : 0 < bw.NZ) :
    ∃ b, BinVOX.read inp r = some b ∧
      (b.NX = bw.NX ∧ b.NY = bw.NY ∧ b.NZ = bw.NZ ∧ b.TX = bw.TX ∧ b.TY = bw.TY ∧ b.TZ = bw.TZ ∧
        b.Scale = bw.Scale) ∧
      ∀ k, Vox b k ↔ Vox bw k ∧ InClosed ⟨r.sx, r.sy, r.sz, clampCount r.cx bw.NX,
        clampCount r.cy bw.NY, clampCount r.cz bw.NZ⟩ k := by
  obtain ⟨_, hc, h, hb, ps, h3, h4, _, h6, h7, rfl⟩ := (read_iff inp wholeRegion bw).mp hw
  have hr : BinVOX.read inp r = some (mkModel h (addVals r h (expand ps) 0 [])) :=
    (read_iff inp r _).mpr ⟨(nonneg_iff r).mpr hn, hc, h, hb, ps, h3, h4, hs, h6, h7, rfl⟩
  refine ⟨_, hr, ⟨rfl, rfl, rfl, rfl, rfl, rfl, rfl⟩, ?_⟩
  intro k
  rw [read_vox_iff inp r _ h hb ps h3 h4 hr hx hy hz k,
    read_whole_vox inp _ h hb ps h3 h4 hw hx hy hz k]
  show _ ↔ (_ ∧ _) ∧ InClosed ⟨r.sx, r.sy, r.sz, clampCount r.cx h.nx,
        clampCount r.cy h.ny, clampCount r.cz h.nz⟩ k
  tauto

/-- C08: a sub-region read succeeds exactly when no parameter is negative, the whole read succeeds and the
    start lies within the dimensions. -/
theorem read_subregion_ok_iff [FloatText F] (inp : Input) (r : Region) :
    (∃ b : BinVOX F, BinVOX.read inp r = some b) ↔
      (0 ≤ r.sx ∧ 0 ≤ r.sy ∧ 0 ≤ r.sz ∧ 0 ≤ r.cx ∧ 0 ≤ r.cy ∧ 0 ≤ r.cz) ∧
      ∃ bw : BinVOX F, BinVOX.read inp wholeRegion = some bw ∧ r.sx ≤ bw.NX ∧ r.sy ≤ bw.NY ∧ r.sz ≤ bw.NZ := by
  constructor
  · rintro ⟨b, hread⟩
    obtain ⟨h0, hc, h, hb, ps, h3, h4, hs, h6, h7, -⟩ := (read_iff inp r b).mp hread
    have hn := (nonneg_iff r).mp h0
    have hw : BinVOX.read inp wholeRegion = some (mkModel h (addVals wholeRegion h (expand ps) 0 [])) :=
      (read_iff inp wholeRegion _).mpr ⟨by decide, hc, h, hb, ps, h3, h4,
        ⟨by show (0 : Int) ≤ _; omega, by show (0 : Int) ≤ _; omega, by show (0 : Int) ≤ _; omega⟩, h6, h7, rfl⟩
    exact ⟨hn, _, hw, hs⟩
  · rintro ⟨hn, bw, hw, hs⟩
    obtain ⟨_, hc, h, hb, ps, h3, h4, _, h6, h7, rfl⟩ := (read_iff inp wholeRegion bw).mp hw
    exact ⟨_, (read_iff inp r _).mpr ⟨(nonneg_iff r).mpr hn, hc, h, hb, ps, h3, h4, hs, h6, h7, rfl⟩⟩

/-- C08: the documented half-open box is returned iff no voxel of the file lies on the extra
    layers. -/
theorem read_subregion_halfopen_iff [FloatText F] (inp : Input) (r : Region) (bw b : BinVOX F)
    (hw : BinVOX.read inp wholeRegion = some bw) (hr : BinVOX.read inp r = some b)
    (hx : 0 < bw.NX) (hy : 0 < bw.NY) (hz : 0 < bw.NZ) :
    let box : Region := ⟨r.sx, r.sy, r.sz, clampCount r.cx bw.NX, clampCount r.cy bw.NY,
      clampCount r.cz bw.NZ⟩
    (∀ k, Vox b k ↔ Vox bw k ∧ InHalfOpen box k) ↔
      ∀ k, Vox bw k → InClosed box k →
        k.X ≠ box.sx + box.cx ∧ k.Y ≠ box.sy + box.cy ∧ k.Z ≠ box.sz + box.cz := by
  intro box
  have hn := hr
  obtain ⟨hn, _, h', hb', ps', e1, e2, hs, _, _, hb⟩ := (read_iff inp r b).mp hr
  obtain ⟨_, _, h, hb2, ps, e3, e4, _, _, _, hbw⟩ := (read_iff inp wholeRegion bw).mp hw
  obtain ⟨rfl, _, _⟩ := isHeader_unique isLine_binvoxMagic e4 e2 (e3.symm.trans e1)
  have hs' : r.sx ≤ bw.NX ∧ r.sy ≤ bw.NY ∧ r.sz ≤ bw.NZ := by rw [hbw]; exact hs
  obtain ⟨b2, hr2, _, hv⟩ := read_subregion_closed inp r bw hw ((nonneg_iff r).mp hn) hs' hx hy hz
  rw [hr] at hr2
  cases hr2
  constructor
  · intro hall k hk hc
    have := (hall k).mp ((hv k).mpr ⟨hk, hc⟩)
    obtain ⟨_, a1, a2, a3, a4, a5, a6⟩ := this
    omega
  · intro hno k
    rw [hv k]
    constructor
    · rintro ⟨h1, h2⟩
      have := hno k h1 h2
      refine ⟨h1, ?_⟩
      obtain ⟨a1, a2, a3, a4, a5, a6⟩ := h2
      unfold InHalfOpen
      change _ ∧ _ at this
      simp only [box] at *
      omega
    · rintro ⟨h1, a1, a2, a3, a4, a5, a6⟩
      refine ⟨h1, ?_⟩
      unfold InClosed
      simp only [box] at *
      omega

/-- C08 is violated: reading one layer `x ∈ [0,1)` of a 2×1×1 file with both voxels set returns
    the voxel at x = 1 too. -/
theorem read_subregion_too_many :
    ∃ (inp : Input) (r : Region) (b : BinVOX ℚ), BinVOX.read inp r = some b ∧ r.sx = 0 ∧ r.cx = 1 ∧
      Vox b ⟨1, 0, 0⟩ := by
  refine ⟨⟨headerBytes binvoxMagic 2 1 1 (0 : ℚ) 0 0 1 ++ pairBytes [(1, 2)], true⟩,
    ⟨0, 0, 0, 1, 0, 0⟩, _, (read_iff _ _ _).mpr ⟨by decide, rfl, ⟨2, 1, 1, 0, 0, 0, 1⟩, _, [(1, 2)],
    rfl, isHeader_headerBytes (F := ℚ) binvoxMagic (h := ⟨2, 1, 1, 0, 0, 0, 1⟩) (by decide) (by decide)
      (by decide) (by decide) (by decide) (by decide), by decide, ?_, by decide, rfl⟩, rfl, rfl, ?_⟩
  · intro p hp
    simp only [List.mem_singleton] at hp; subst hp; decide
  · unfold Vox; decide

/-! ## C10: truncation -/

/-- C10: reading a prefix of a file (a crash while writing) fails or yields the same header and a
    subset of the voxels; a cut inside the header or inside a pair is always detected. -/
theorem read_truncated [FloatText F] (bytes : Bytes) (b : BinVOX F)
    (hfull : BinVOX.read ⟨bytes, true⟩ wholeRegion = some b) (n : Nat) (clean : Bool) :
    (∀ b', BinVOX.read ⟨bytes.take n, clean⟩ wholeRegion = some b' →
      b'.NX = b.NX ∧ b'.NY = b.NY ∧ b'.NZ = b.NZ ∧ b'.TX = b.TX ∧ b'.TY = b.TY ∧ b'.TZ = b.TZ ∧
      b'.Scale = b.Scale ∧ ∀ k, Vox b' k → Vox b k) ∧
    (∀ (h : Header F) (hb rest : Bytes), bytes = hb ++ rest → IsHeader binvoxMagic h hb →
      n < bytes.length → (n < hb.length ∨ (n - hb.length) % 2 = 1 ∨ clean = false) →
      BinVOX.read (F := F) ⟨bytes.take n, clean⟩ wholeRegion = none) := by
  obtain ⟨_, _, h, hb, ps, e1, e2, _, hl, hlen, rfl⟩ := (read_iff _ _ b).mp hfull
  simp only at e1
  -- what any successful read of the prefix looks like
  have key : ∀ b', BinVOX.read (F := F) ⟨bytes.take n, clean⟩ wholeRegion = some b' →
      clean = true ∧ ∃ ps1 ps2, ps = ps1 ++ ps2 ∧ bytes.take n = hb ++ pairBytes ps1 ∧
        b' = mkModel h (addVals wholeRegion h (expand ps1) 0 []) := by
    intro b' hr
    obtain ⟨_, hc, h', hb', ps', f1, f2, _, _, _, hmod⟩ := (read_iff _ _ b').mp hr
    simp only at f1 hc
    have hsplit : hb' ++ (pairBytes ps' ++ bytes.drop n) = hb ++ pairBytes ps := by
      rw [← List.append_assoc, ← f1, List.take_append_drop, e1]
    obtain ⟨rfl, rfl, hrest⟩ := isHeader_unique isLine_binvoxMagic f2 e2 hsplit
    have hpre : ∃ ps2, ps = ps' ++ ps2 := by
      clear * - hrest
      generalize bytes.drop n = d at hrest
      induction ps' generalizing ps with
      | nil => exact ⟨ps, rfl⟩
      | cons p ps' ih =>
        cases ps with
        | nil => simp [pairBytes] at hrest
        | cons q ps =>
          simp only [pairBytes, List.flatMap_cons, List.cons_append, List.nil_append,
            List.cons.injEq] at hrest
          obtain ⟨ps2, h2⟩ := ih ps hrest.2.2
          exact ⟨ps2, by rw [h2, List.cons_append, Prod.ext hrest.1 hrest.2.1]⟩
    obtain ⟨ps2, hps2⟩ := hpre
    exact ⟨hc, ps', ps2, hps2, f1, hmod⟩
  constructor
  · intro b' hr
    obtain ⟨_, ps1, ps2, rfl, _, rfl⟩ := key b' hr
    refine ⟨rfl, rfl, rfl, rfl, rfl, rfl, rfl, ?_⟩
    intro k hk
    have hk : (addVals wholeRegion h (expand ps1) 0 []).has k = true := hk
    show (addVals wholeRegion h (expand (ps1 ++ ps2)) 0 []).has k = true
    rw [addVals_has] at hk ⊢
    rcases hk with hk | ⟨j, h1, h2, h3⟩
    · exact Or.inl hk
    · refine Or.inr ⟨j, ?_, h2, h3⟩
      rw [expand_append]
      have : j < (expand ps1).length := by
        by_contra hge
        rw [List.getElem?_eq_none (by omega)] at h1; cases h1
      rw [List.getElem?_append_left this]; exact h1
  · intro h' hb' rest hsp hh' hn hcut
    obtain ⟨rfl, rfl, _⟩ := isHeader_unique isLine_binvoxMagic hh' e2 (hsp.symm.trans e1)
    by_contra hne
    obtain ⟨b', hr⟩ := Option.ne_none_iff_exists'.mp hne
    obtain ⟨hc, ps1, ps2, hps, htake, _⟩ := key b' hr
    have hlen2 : (bytes.take n).length = hb'.length + 2 * ps1.length := by
      rw [htake, List.length_append]
      congr 1
      clear * -
      induction ps1 with
      | nil => rfl
      | cons p ps1 ih =>
        simp only [pairBytes, List.flatMap_cons, List.length_append, List.length_cons,
          List.length_nil] at *
        omega
    rw [List.length_take, Nat.min_eq_left (by omega)] at hlen2
    rcases hcut with hcut | hcut | hcut
    · omega
    · omega
    · rw [hc] at hcut; cases hcut

/-- C10 for files produced by the writer: the voxels read from any prefix are voxels of the model. -/
theorem write_truncated [FloatText F] [LawfulFloatText F] (b : BinVOX F) (hne : b.white ≠ [])
    (hx : 0 ≤ b.NX ∧ b.NX ≤ maxInt) (hy : 0 ≤ b.NY ∧ b.NY ≤ maxInt) (hz : 0 ≤ b.NZ ∧ b.NZ ≤ maxInt)
    (n : Nat) (clean : Bool) (b' : BinVOX F)
    (hr : BinVOX.read ⟨(b.write ⟨[], []⟩ wholeRegion).1.out.take n, clean⟩ wholeRegion = some b') :
    b'.NX = b.NX ∧ b'.NY = b.NY ∧ b'.NZ = b.NZ ∧ b'.TX = b.TX ∧ b'.TY = b.TY ∧ b'.TZ = b.TZ ∧
      b'.Scale = b.Scale ∧ ∀ k, Vox b' k → Vox b k ∧ InDims b.NX b.NY b.NZ k := by
  have h := write_region_read b hne wholeRegion
  have e : writeRegion b.NX b.NY b.NZ wholeRegion = ⟨0, 0, 0, b.NX, b.NY, b.NZ⟩ := rfl
  simp only [e] at h
  obtain ⟨bf, hf, h1, h2, h3, h4, h5, h6, h7, _, _, hv⟩ := h hx hy hz
  obtain ⟨t, _⟩ := read_truncated _ bf hf n clean
  obtain ⟨t1, t2, t3, t4, t5, t6, t7, t8⟩ := t b' hr
  refine ⟨by rw [t1, h1], by rw [t2, h2], by rw [t3, h3], by rw [t4, h4], by rw [t5, h5],
    by rw [t6, h6], by rw [t7, h7], ?_⟩
  intro k hk
  have := (hv k).mp (t8 k hk)
  have e : k.shift 0 0 0 = k := by simp [Key.shift]
  rw [e] at this
  exact this.symm

/-! ## C11: write errors -/

/-- C11 (exact outcome): `Write` reports success iff the file could be created and closed and — for
    a model with white voxels — the *second* write call, the data, succeeded.  The outcome of the
    first write call, the header, plays no role. -/
theorem write_reports_iff [FloatText F] (b : BinVOX F) (env : FileEnv) (r : Region) :
    (b.Write env r).2 = true ↔ env.createOk = true ∧ env.closeOk = true ∧
      (b.white = [] ∨ ∀ k, env.plan[1]? ≠ some (WOut.fail k)) := by
  unfold BinVOX.Write
  cases hc : env.createOk
  · simp
  by_cases h0 : b.white.length = 0
  · have : b.white = [] := by simpa using h0
    simp [BinVOX.write, this]
  · have hne : b.white ≠ [] := by simpa using h0
    rcases hplan : env.plan with _ | ⟨o1, _ | ⟨o2, p⟩⟩
    · simp [BinVOX.write, h0, Sink.write, hne]
    · cases o1 <;> simp [BinVOX.write, h0, Sink.write, hne]
    · cases o1 <;> cases o2 <;> simp [BinVOX.write, h0, Sink.write, hne]

/-- C11 is violated: the header write fails after 0 bytes and `Write` still reports success, leaving a
    file that no reader accepts. -/
theorem write_header_error_ignored [FloatText F] (b : BinVOX F) (hne : b.white = []) (r r2 : Region) :
    b.Write ⟨true, [WOut.fail 0], true⟩ r = (some [], true) ∧
    BinVOX.read (F := F) ⟨[], true⟩ r2 = none := by
  constructor
  · simp [BinVOX.Write, BinVOX.write, hne, Sink.write]
  · unfold BinVOX.read readHeader readLine
    split <;> rfl

/-- The same with voxels: the data reach the file without a header. -/
theorem write_header_error_ignored' [FloatText F] (b : BinVOX F) (hne : b.white ≠ []) (r : Region) :
    ∃ data, b.Write ⟨true, [WOut.fail 0], true⟩ r = (some data, true) ∧
      data = (encodeRuns b.white (writeRegion b.NX b.NY b.NZ r)).flatMap runBytes := by
  have h0 : b.white.length ≠ 0 := by simpa using hne
  exact ⟨_, by simp [BinVOX.Write, BinVOX.write, h0, Sink.write], rfl⟩

/-! ## Examples: each theorem above on a concrete model

`exFile` is what `Write` stores of `exModel` (2×3×2 with three voxels, one outside the grid). -/

def exFile : Bytes := (exModel.write ⟨[], []⟩ wholeRegion).1.out

theorem exModel_ne : exModel.white ≠ [] := by decide

theorem exModel_in : Vox exModel ⟨1, 2, 0⟩ ∧ InDims 2 3 2 ⟨1, 2, 0⟩ := by
  unfold Vox InDims
  decide

theorem exFile_read : ∃ b : BinVOX ℚ, BinVOX.read ⟨exFile, true⟩ wholeRegion = some b ∧ b.NX = 2 ∧ b.NY = 3 ∧ b.NZ = 2 ∧
    ∀ k, Vox b k ↔ Vox exModel k ∧ InDims 2 3 2 k := by
  obtain ⟨file, b, h1, h2, h3, h4, h5, -, -, -, -, h6⟩ := write_read_roundtrip exModel exModel_ne (by decide) (by decide) (by decide)
    ⟨true, [], true⟩ rfl (fun _ h => (List.not_mem_nil h).elim) rfl
  have e : file = exFile := by
    unfold BinVOX.Write at h1
    simp only at h1
    exact (Option.some.inj (congrArg Prod.fst h1)).symm
  rw [e] at h2
  exact ⟨b, h2, h3, h4, h5, h6⟩

example := write_wellformed exModel exModel_ne ⟨0, 1, 0, 1, 2, 2⟩
example := write_count exModel exModel_ne (by unfold GoMap.WF; decide) ⟨0, 1, 0, 1, 2, 2⟩
/-- A model without voxels. -/
example := write_read_empty ({ exModel with WhiteVoxels := some [] }) rfl ⟨0, 1, 0, 1, 2, 2⟩
example := write_region_world_same_pitch exModel exModel_ne ⟨0, 1, 0, 1, 2, 2⟩ (by decide) (by decide) ⟨0, 0, 1⟩
example := write_region_pitch exModel exModel_ne ⟨0, 1, 0, 1, 2, 2⟩ (by decide) (by decide) ⟨0, 0, 1⟩
example := write_region_world exModel exModel_ne ⟨0, 1, 0, 1, 2, 2⟩ (by decide) (by decide) ⟨0, 0, 1⟩
example := write_order_independent exModel exModel' ⟨rfl, rfl, rfl⟩ ⟨rfl, rfl, rfl, rfl⟩ (by
  intro k
  simp only [Vox, BinVOX.white, mapOf, exModel, exModel', Option.getD_some, GoMap.has, GoMap.get_cons, GoMap.get_nil]
  by_cases h1 : (⟨1, 2, 0⟩ : Key) = k <;> by_cases h2 : (⟨0, 0, 1⟩ : Key) = k <;>
    by_cases h3 : (⟨5, 0, 0⟩ : Key) = k <;> simp [h1, h2, h3]) ⟨[], [.full]⟩ wholeRegion

/-- `exFile` has a header and pairs, so that `read_header`, `read_vox_iff` and `read_whole_vox` apply to it. -/
example : ∃ (b : BinVOX ℚ) (h : Header ℚ) (hb : Bytes) (ps : List (UInt8 × UInt8)),
    BinVOX.read ⟨exFile, true⟩ wholeRegion = some b ∧ exFile = hb ++ pairBytes ps ∧ IsHeader binvoxMagic h hb ∧
    0 < h.nx ∧ 0 < h.ny ∧ 0 < h.nz ∧ Vox b ⟨1, 2, 0⟩ ∧ ¬ Vox b ⟨5, 0, 0⟩ := by
  obtain ⟨b, hb, e1, e2, e3, hv⟩ := exFile_read
  obtain ⟨-, -, h, hd, ps, h1, h2, -⟩ := (read_accepts_iff (F := ℚ) ⟨exFile, true⟩ wholeRegion).mp ⟨b, hb⟩
  obtain ⟨a1, a2, a3, -⟩ := read_header _ _ b h hd _ h1 h2 hb
  have h0 : 0 < h.nx ∧ 0 < h.ny ∧ 0 < h.nz := by omega
  have := read_vox_iff _ _ b h hd ps h1 h2 hb h0.1 h0.2.1 h0.2.2 ⟨1, 2, 0⟩
  have := read_whole_vox _ b h hd ps h1 h2 hb h0.1 h0.2.1 h0.2.2 ⟨1, 2, 0⟩
  exact ⟨b, h, hd, ps, hb, h1, h2, h0.1, h0.2.1, h0.2.2, (hv _).mpr exModel_in, fun h => by
    have := ((hv _).mp h).2
    unfold InDims at this
    dsimp only at this
    omega⟩

/-- Reading a part of `exFile`. -/
example : ∃ b bw : BinVOX ℚ, BinVOX.read ⟨exFile, true⟩ wholeRegion = some bw ∧ BinVOX.read ⟨exFile, true⟩ ⟨0, 1, 0, 1, 1, 1⟩ = some b ∧
    Vox b ⟨1, 2, 0⟩ := by
  obtain ⟨bw, hbw, e1, e2, e3, hv⟩ := exFile_read
  obtain ⟨b, hb, -, h2⟩ := read_subregion_closed _ ⟨0, 1, 0, 1, 1, 1⟩ bw hbw (by decide) (by rw [e1, e2, e3]; decide)
    (by omega) (by omega) (by omega)
  have := read_subregion_halfopen_iff _ _ bw b hbw hb (by omega) (by omega) (by omega)
  refine ⟨b, bw, hbw, hb, (h2 _).mpr ⟨(hv _).mpr exModel_in, ?_⟩⟩
  rw [e1, e2, e3]
  unfold InClosed
  decide

/-- The file cut off after 100 bytes. -/
example : ∃ b : BinVOX ℚ, BinVOX.read ⟨exFile, true⟩ wholeRegion = some b ∧
    ∀ b' : BinVOX ℚ, BinVOX.read ⟨exFile.take 100, true⟩ wholeRegion = some b' → ∀ k, Vox b' k → Vox b k := by
  obtain ⟨b, hb, -⟩ := exFile_read
  exact ⟨b, hb, fun b' h k => ((read_truncated exFile b hb 100 true).1 b' h).2.2.2.2.2.2.2 k⟩

/-- Cut off after the header, `exFile` is still read: `write_truncated` is not vacuous. -/
example : ∃ n b', n < exFile.length ∧ BinVOX.read (F := ℚ) ⟨exFile.take n, true⟩ wholeRegion = some b' ∧
    b'.NX = 2 ∧ ∀ k, Vox b' k → Vox exModel k ∧ InDims 2 3 2 k := by
  obtain ⟨b, hb, e1, e2, e3, hv⟩ := exFile_read
  obtain ⟨-, -, h, hd, ps, h1, h2, h3, h4, h5⟩ := (read_accepts_iff (F := ℚ) ⟨exFile, true⟩ wholeRegion).mp ⟨b, hb⟩
  replace h1 : exFile = hd ++ pairBytes ps := h1
  have hps : ps ≠ [] := by
    rintro rfl
    have := (read_whole_vox _ b h hd [] h1 h2 hb (by
      obtain ⟨a1, a2, a3, -⟩ := read_header _ _ b h hd _ h1 h2 hb
      omega) (by
      obtain ⟨a1, a2, a3, -⟩ := read_header _ _ b h hd _ h1 h2 hb
      omega) (by
      obtain ⟨a1, a2, a3, -⟩ := read_header _ _ b h hd _ h1 h2 hb
      omega) ⟨1, 2, 0⟩).mp ((hv _).mpr exModel_in)
    simp [expand] at this
  obtain ⟨b', hb'⟩ := (read_accepts_iff (F := ℚ) ⟨exFile.take hd.length, true⟩ wholeRegion).mpr ⟨by decide, rfl, h, hd, [], by
    show exFile.take hd.length = _
    rw [h1, List.take_left']
    · simp [pairBytes]
    · rfl, h2, h3, by unfold LegalPairs; simp, by simp⟩
  have := write_truncated exModel exModel_ne (by decide) (by decide) (by decide) hd.length true b' hb'
  refine ⟨hd.length, b', ?_, hb', this.1, this.2.2.2.2.2.2.2⟩
  rw [h1, List.length_append]
  cases ps with
  | nil => exact absurd rfl hps
  | cons p ps => simp [pairBytes]

example := write_header_error_ignored ({ exModel with WhiteVoxels := some [] }) rfl wholeRegion wholeRegion
example := write_header_error_ignored' exModel exModel_ne wholeRegion

end StlDice
