import Verif.Lemmas.BinData
import Verif.Lemmas.Header
import Mathlib.Tactic.Ring

/-! Index arithmetic and the composition of header and data. -/

namespace StlDice
open Spec
variable {F : Type}

theorem keyAt_iff {ny nz : Nat} (hy : 0 < ny) (hz : 0 < nz) (i : Nat) (k : Key) :
    keyAt ny nz i = k ↔ 0 ≤ k.X ∧ (0 ≤ k.Y ∧ k.Y < ny) ∧ (0 ≤ k.Z ∧ k.Z < nz) ∧
      (i : Int) = (k.X * nz + k.Z) * ny + k.Y := by
  obtain ⟨x, y, z⟩ := k
  simp only [keyAt, Key.mk.injEq]
  constructor
  · rintro ⟨rfl, rfl, rfl⟩
    have h1 := Nat.div_add_mod i ny
    have h2 := Nat.div_add_mod (i / ny) nz
    have m1 := Nat.mod_lt i hy
    have m2 := Nat.mod_lt (i / ny) hz
    refine ⟨Int.natCast_nonneg _, ⟨Int.natCast_nonneg _, by exact_mod_cast m1⟩,
      ⟨Int.natCast_nonneg _, by exact_mod_cast m2⟩, ?_⟩
    have : i = (i / ny / nz * nz + i / ny % nz) * ny + i % ny := by
      rw [Nat.mul_comm (i / ny / nz) nz, h2, Nat.mul_comm, h1]
    exact_mod_cast this
  · rintro ⟨hx, ⟨hy0, hy1⟩, ⟨hz0, hz1⟩, hi⟩
    obtain ⟨x, rfl⟩ := Int.eq_ofNat_of_zero_le hx
    obtain ⟨y, rfl⟩ := Int.eq_ofNat_of_zero_le hy0
    obtain ⟨z, rfl⟩ := Int.eq_ofNat_of_zero_le hz0
    have hi : i = (x * nz + z) * ny + y := by exact_mod_cast hi
    have hy1 : y < ny := by exact_mod_cast hy1
    have hz1 : z < nz := by exact_mod_cast hz1
    have d1 : i / ny = x * nz + z := by
      rw [hi, Nat.mul_comm, Nat.mul_add_div hy, Nat.div_eq_of_lt hy1, Nat.add_zero]
    have m1 : i % ny = y := by rw [hi, Nat.mul_comm, Nat.mul_add_mod, Nat.mod_eq_of_lt hy1]
    have d2 : (x * nz + z) / nz = x := by
      rw [Nat.mul_comm, Nat.mul_add_div hz, Nat.div_eq_of_lt hz1, Nat.add_zero]
    have m2 : (x * nz + z) % nz = z := by rw [Nat.mul_comm, Nat.mul_add_mod, Nat.mod_eq_of_lt hz1]
    rw [d1, m1, d2, m2]; exact ⟨rfl, rfl, rfl⟩

theorem keyAt_inj {ny nz : Nat} (hy : 0 < ny) (hz : 0 < nz) {i j : Nat}
    (h : keyAt ny nz i = keyAt ny nz j) : i = j := by
  have hi := ((keyAt_iff hy hz i _).mp h).2.2.2
  have hj := ((keyAt_iff hy hz j _).mp rfl).2.2.2
  rw [← hj] at hi; exact_mod_cast hi

/-- `keyAt` enumerates exactly the cells of the box. -/
theorem exists_keyAt {nx ny nz : Nat} (hy : 0 < ny) (hz : 0 < nz) (k : Key) :
    (∃ i, i < nx * nz * ny ∧ keyAt ny nz i = k) ↔ InDims nx ny nz k := by
  constructor
  · rintro ⟨i, hi, rfl⟩
    have m1 := Nat.mod_lt i hy
    have m2 := Nat.mod_lt (i / ny) hz
    have d : i / ny / nz < nx := by
      rw [Nat.div_lt_iff_lt_mul hz, Nat.div_lt_iff_lt_mul hy]; exact hi
    unfold InDims keyAt
    dsimp only
    exact ⟨Int.natCast_nonneg _, by exact_mod_cast d, Int.natCast_nonneg _, by exact_mod_cast m1,
      Int.natCast_nonneg _, by exact_mod_cast m2⟩
  · intro h
    obtain ⟨x, y, z⟩ := k
    obtain ⟨hx0, hx1, hy0, hy1, hz0, hz1⟩ := h
    simp only at *
    obtain ⟨x, rfl⟩ := Int.eq_ofNat_of_zero_le hx0
    obtain ⟨y, rfl⟩ := Int.eq_ofNat_of_zero_le hy0
    obtain ⟨z, rfl⟩ := Int.eq_ofNat_of_zero_le hz0
    refine ⟨(x * nz + z) * ny + y, ?_, ?_⟩
    · have hx1 : x < nx := by exact_mod_cast hx1
      have hy1 : y < ny := by exact_mod_cast hy1
      have hz1 : z < nz := by exact_mod_cast hz1
      calc (x * nz + z) * ny + y < (x * nz + z) * ny + ny := by omega
        _ = (x * nz + (z + 1)) * ny := by ring
        _ ≤ (x * nz + nz) * ny := Nat.mul_le_mul_right _ (by omega)
        _ = (x + 1) * nz * ny := by ring
        _ ≤ nx * nz * ny := Nat.mul_le_mul_right _ (Nat.mul_le_mul_right _ (by omega))
    · rw [keyAt_iff hy hz]
      refine ⟨by omega, ⟨by omega, by simpa using hy1⟩, ⟨by omega, by simpa using hz1⟩, by push_cast; ring⟩

theorem cells_nodup (r : Region) : (cells r).Nodup := by
  rw [cells_eq]
  by_cases hy : 0 < r.cy.toNat
  · by_cases hz : 0 < r.cz.toNat
    · apply List.Nodup.map
      · intro i j hij
        have : keyAt r.cy.toNat r.cz.toNat i = keyAt r.cy.toNat r.cz.toNat j := by
          simp only [Key.shift, Key.mk.injEq] at hij
          have h1 := hij.1; have h2 := hij.2.1; have h3 := hij.2.2
          cases hk : keyAt r.cy.toNat r.cz.toNat i
          cases hl : keyAt r.cy.toNat r.cz.toNat j
          rw [hk, hl] at h1 h2 h3
          simp only at h1 h2 h3
          simp only [Key.mk.injEq]; omega
        exact keyAt_inj hy hz this
      · exact List.nodup_range
    · have : r.cz.toNat = 0 := by omega
      simp [this]
  · have : r.cy.toNat = 0 := by omega
    simp [this]

theorem isHeader_nonneg [FloatText F] {magic : Bytes} {h : Header F} {hb : Bytes}
    (hh : IsHeader magic h hb) : 0 ≤ h.nx ∧ 0 ≤ h.ny ∧ 0 ≤ h.nz := by
  obtain ⟨d, t, s, _, ⟨a, b, c, e, _, ⟨_, _, ha, _⟩, ⟨_, _, hb, _⟩, ⟨_, _, hc, _⟩, _⟩, _⟩ := hh
  omega

theorem nonneg_iff (r : Region) : r.nonneg = true ↔
    0 ≤ r.sx ∧ 0 ≤ r.sy ∧ 0 ≤ r.sz ∧ 0 ≤ r.cx ∧ 0 ≤ r.cy ∧ 0 ≤ r.cz := by
  unfold Region.nonneg
  simp only [Bool.not_eq_true', Bool.or_eq_false_iff, decide_eq_false_iff_not, not_lt]
  tauto

/-- The model returned for a header and a voxel map. -/
def mkModel (h : Header F) (m : WhiteVoxelMap) : BinVOX F :=
  { NX := h.nx, NY := h.ny, NZ := h.nz, TX := h.tx, TY := h.ty, TZ := h.tz,
    Scale := h.scale, WhiteVoxels := some m, ColorVoxels := none }

/-- Complete description of the reader. -/
theorem read_iff [FloatText F] (inp : Input) (r : Region) (b : BinVOX F) :
    BinVOX.read inp r = some b ↔
      r.nonneg = true ∧ inp.clean = true ∧ ∃ (h : Header F) (hb : Bytes) (ps : List (UInt8 × UInt8)),
        inp.bytes = hb ++ pairBytes ps ∧ IsHeader binvoxMagic h hb ∧
        (r.sx ≤ h.nx ∧ r.sy ≤ h.ny ∧ r.sz ≤ h.nz) ∧ LegalPairs ps ∧
        (expand ps).length ≤ capacity h ∧ b = mkModel h (addVals r h (expand ps) 0 []) := by
  unfold BinVOX.read
  constructor
  · intro hr
    split at hr
    · cases hr
    rename_i hn
    split at hr
    · cases hr
    rename_i h rest hh
    split at hr
    · cases hr
    rename_i m hm
    obtain ⟨⟨hb, he, hhead⟩, hs⟩ := isHeader_of hh
    obtain ⟨hc, ps, hps, hl, hlen, hm⟩ := (readData_start r h (isHeader_nonneg hhead).1 _ _ _).mp hm
    refine ⟨by simpa using hn, hc, h, hb, ps, by rw [he, hps], hhead, hs, hl, hlen, ?_⟩
    cases hr; rw [hm]; rfl
  · rintro ⟨hn, hc, h, hb, ps, he, hhead, hs, hl, hlen, rfl⟩
    have hd := (readData_start r h (isHeader_nonneg hhead).1 inp.clean (pairBytes ps) _).mpr
      ⟨hc, ps, rfl, hl, hlen, rfl⟩
    rw [he, readHeader_of isLine_binvoxMagic hhead (by omega)]
    simp only [hn, Bool.not_true, Bool.false_eq_true, if_false, hd]
    rfl

/-- A header followed by data splits in one way only. -/
theorem isHeader_unique [FloatText F] {magic : Bytes} (hm : IsLine magic) {h h' : Header F}
    {hb hb' rest rest' : Bytes} (h1 : IsHeader magic h hb) (h2 : IsHeader magic h' hb')
    (he : hb ++ rest = hb' ++ rest') : h = h' ∧ hb = hb' ∧ rest = rest' := by
  have n1 := isHeader_nonneg h1
  have n2 := isHeader_nonneg h2
  have r1 := readHeader_of hm h1 (r := wholeRegion) (by simp only [wholeRegion]; omega) rest
  have r2 := readHeader_of hm h2 (r := wholeRegion) (by simp only [wholeRegion]; omega) rest'
  rw [he, r2] at r1
  simp only [Option.some.injEq, Prod.mk.injEq] at r1
  refine ⟨r1.1.symm, ?_, r1.2.symm⟩
  rw [r1.2] at he
  exact List.append_cancel_right he

theorem capacity_pos {h : Header F} (hy : 0 < h.ny) (hz : 0 < h.nz) :
    capacity h = h.nx.toNat * h.nz.toNat * h.ny.toNat := by
  unfold capacity
  rw [Nat.max_eq_left (by omega), Nat.max_eq_left (by omega)]

end StlDice
