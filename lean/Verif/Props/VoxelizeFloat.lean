import Verif.Lemmas.CutFloat
import Verif.Props.Dice

/-! # Voxelizing in float64 (C87) -/

namespace StlDice
open Spec GoFloat BinVOX F64

theorem lit_half : (lit (1 / 2 : ℚ) : F64).val = 1 / 2 := of_exact ⟨1, -1, by norm_num, by norm_num, by norm_num⟩
theorem val_zero : (ofInt 0 : F64).val = 0 := rfl
theorem val_one : (ofInt 1 : F64).val = 1 := of_exact ⟨1, 0, by norm_num, by norm_num, by norm_num⟩
theorem val_neg_one : (ofInt (-1) : F64).val = -1 := of_exact ⟨-1, 0, by norm_num, by norm_num, by norm_num⟩

theorem sliceHeight_rat (b : BinVOX ℚ) (zi : Int) : sliceHeight b zi = sliceMiddle b zi := by
  show b.TZ + (1 / 2 + (zi : ℚ)) * (((1 : Int) : ℚ) / b.VoxelsPerMM) = b.TZ + ((zi : ℚ) + 1 / 2) / b.VoxelsPerMM
  push_cast
  ring

/-- Bounds on the resolution as computed. -/
theorem near_vpmm {V v : ℚ} (lo : (2 : ℚ) ^ (-899 : Int) ≤ V) (hi : V ≤ 2 ^ (899 : Int)) (h : |v - V| ≤ V / 2 ^ 50) :
    0 < V ∧ 0 < v ∧ V / 2 ≤ v ∧ (2 : ℚ) ^ (-900 : Int) ≤ v ∧ v ≤ 2 ^ (900 : Int) := by
  have V0 : 0 < V := lt_of_lt_of_le (by positivity) lo
  obtain ⟨h1, h2⟩ := abs_le.mp h
  have : V / 2 ^ 50 ≤ V / 2 := div_le_div_of_nonneg_left V0.le (by norm_num) (by norm_num)
  have a : (2 : ℚ) ^ (-899 : Int) = 2 * 2 ^ (-900 : Int) := by
    rw [show (-899 : Int) = 1 + -900 by norm_num, zpow_add₀ (by norm_num), zpow_one]
  have b : (2 : ℚ) ^ (900 : Int) = 2 * 2 ^ (899 : Int) := by
    rw [show (900 : Int) = 1 + 899 by norm_num, zpow_add₀ (by norm_num), zpow_one]
  rw [a] at lo
  rw [b]
  clear a b
  generalize (2 : ℚ) ^ (-900 : Int) = p at *
  generalize (2 : ℚ) ^ (899 : Int) = q at *
  refine ⟨V0, ?_, ?_, ?_, ?_⟩ <;> linarith

theorem _root_.StlDice.Spec.GeneralPosition.reach {R : ℚ} {b : BinVOX ℚ} {m : Mesh ℚ} (h : GeneralPosition R b m) : InReach R b m :=
  ⟨h.lo, h.hi, h.nz, h.corner, h.top, h.points⟩

/-- The height of a slice. -/
theorem sliceHeight_f64 {R : ℚ} {b : BinVOX ℚ} {b' : BinVOX F64} {m : Mesh ℚ} (hn : NearModel R b b')
    (hg : InReach R b m) {zi : Int} (h0 : 0 ≤ zi) (h1 : zi < b.NZ) :
    |(sliceHeight b' zi).val - sliceMiddle b zi| ≤ R / 2 ^ 46 := by
  obtain ⟨V0, v0, vh, vlo, vhi⟩ := near_vpmm hg.lo hg.hi hn.pitch
  have hz : Binary64 ((zi : ℚ) + 1 / 2) := by
    have := hg.nz
    have h := binary64_half (n := 2 * zi + 1) (by rw [abs_of_nonneg (by omega)]; omega)
    push_cast at h
    convert h using 1
    ring
  have e : (sliceHeight b' zi).val = place64 b'.VoxelsPerMM.val b'.TZ.val ((zi : ℚ) + 1 / 2) := by
    show rnd (b'.TZ.val + rnd (rnd ((lit (1 / 2 : ℚ) : F64).val + (ofInt zi : F64).val) *
      rnd ((ofInt 1 : F64).val / b'.VoxelsPerMM.val))) = _
    have hi : (ofInt zi : F64).val = zi := of_exact (binary64_int (by
      have := hg.nz
      rw [abs_of_nonneg h0]; omega))
    rw [lit_half, val_one, hi, add_comm (1 / 2 : ℚ), rnd_of_mem hz, add_comm]
    rfl
  rw [e]
  have pe := place_error (v0 := b'.VoxelsPerMM.val) (t := b'.TZ.val) (s := (zi : ℚ) + 1 / 2) vlo vhi
    b'.VoxelsPerMM.rep.symm (val_mem _) (Or.inr (by
      have : (0 : ℚ) ≤ zi := by exact_mod_cast h0
      rw [abs_of_nonneg (by linarith)]; linarith))
  have hp := hn.pitch
  have ht := hn.tz
  have hT := hg.corner.2.2
  unfold sliceMiddle
  have sz : ((zi : ℚ) + 1 / 2) / b.VoxelsPerMM ≤ R := by
    refine le_trans (div_le_div_of_nonneg_right ?_ V0.le) hg.top
    have : ((zi + 1 : Int) : ℚ) ≤ b.NZ := by exact_mod_cast h1
    push_cast at this
    linarith
  have s0 : (0 : ℚ) < (zi : ℚ) + 1 / 2 := by
    have : (0 : ℚ) ≤ zi := by exact_mod_cast h0
    linarith
  generalize b'.VoxelsPerMM.val = v at *
  generalize b.VoxelsPerMM = V at *
  generalize (zi : ℚ) + 1 / 2 = s at *
  generalize b'.TZ.val = T' at *
  generalize b.TZ = T at *
  have d : |s / v - s / V| ≤ R / 2 ^ 49 := by
    have e1 : s / v - s / V = -((v - V) / v * (s / V)) := by field_simp; ring
    rw [e1, abs_neg, abs_mul, abs_of_pos (by positivity : 0 < s / V), abs_div, abs_of_pos v0]
    have h3 : |v - V| / v ≤ 1 / 2 ^ 49 := by
      rw [div_le_iff₀ v0]
      have : V / 2 ^ 50 = V / 2 / 2 ^ 49 := by ring
      have := div_le_div_of_nonneg_right vh (by norm_num : (0 : ℚ) ≤ 2 ^ 49)
      linarith
    have := mul_le_mul h3 sz (by positivity) (by norm_num)
    linarith
  have R0 : 0 ≤ R := (abs_nonneg _).trans hT
  have sv : |s / v| ≤ 2 * R := by
    have a : |s / v| ≤ |s / v - s / V| + |s / V| := by
      have := abs_add_le (s / v - s / V) (s / V)
      rwa [sub_add_cancel] at this
    rw [abs_of_pos (by positivity : 0 < s / V)] at a
    have : R / 2 ^ 49 ≤ R / 1 := div_le_div_of_nonneg_left R0 (by norm_num) (by norm_num)
    linarith
  have T'b : |T'| ≤ 2 * R := by
    have a : |T'| ≤ |T' - T| + |T| := by
      have := abs_add_le (T' - T) T
      rwa [sub_add_cancel] at this
    have : R / 2 ^ 48 ≤ R / 1 := div_le_div_of_nonneg_left R0 (by norm_num) (by norm_num)
    linarith
  have tri : |place64 v T' s - (T + s / V)| ≤ |place64 v T' s - (s / v + T')| + (|s / v - s / V| + |T' - T|) := by
    have : place64 v T' s - (T + s / V) = (place64 v T' s - (s / v + T')) + ((s / v - s / V) + (T' - T)) := by ring
    rw [this]
    exact (abs_add_le _ _).trans (add_le_add_right (abs_add_le _ _) _)
  have p2 : (|s / v| + |T'|) / 2 ^ 50 ≤ 4 * R / 2 ^ 50 := div_le_div_of_nonneg_right (by linarith) (by norm_num)
  have e1 : 4 * R / 2 ^ 50 = R / 2 ^ 48 := by ring
  have e2 : R / 2 ^ 46 = 4 * (R / 2 ^ 48) := by ring
  have e3 : R / 2 ^ 49 = R / 2 ^ 48 / 2 := by ring
  have : 0 ≤ R / 2 ^ 48 := by positivity
  rw [e2]
  linarith

/-- What `intersectSegment` computes in float64. -/
theorem intersectSegment_f64 (v0 v1 : Vec F64) (z : F64) : intersectSegment v0 v1 z =
    if -rnd flatLimit < rnd (v1.Z.val - v0.Z.val) ∧ rnd (v1.Z.val - v0.Z.val) < rnd flatLimit then none
    else if rnd (rnd (z.val - v0.Z.val) / rnd (v1.Z.val - v0.Z.val)) < 0 ∨
        1 < rnd (rnd (z.val - v0.Z.val) / rnd (v1.Z.val - v0.Z.val)) then none
    else some ⟨of (v0.X.val + rnd (rnd (v1.X.val - v0.X.val) * rnd (rnd (z.val - v0.Z.val) / rnd (v1.Z.val - v0.Z.val)))),
      of (v0.Y.val + rnd (rnd (v1.Y.val - v0.Y.val) * rnd (rnd (z.val - v0.Z.val) / rnd (v1.Z.val - v0.Z.val)))),
      of (v0.Z.val + rnd (rnd (v1.Z.val - v0.Z.val) * rnd (rnd (z.val - v0.Z.val) / rnd (v1.Z.val - v0.Z.val))))⟩ := by
  have hd : ∀ u : Vec F64, Vec.Dot ⟨ofInt 0, ofInt 0, ofInt 1⟩ u = u.Z := by
    intro u
    apply F64.ext
    show rnd (rnd (rnd ((ofInt 0 : F64).val * u.X.val) + rnd ((ofInt 0 : F64).val * u.Y.val)) +
      rnd ((ofInt 1 : F64).val * u.Z.val)) = u.Z.val
    rw [val_zero, val_one, zero_mul, zero_mul, one_mul, rnd_zero, add_zero, rnd_zero, zero_add, u.Z.rep, u.Z.rep]
  have hn : ∀ u : Vec F64, (Vec.Dot ⟨ofInt 0, ofInt 0, ofInt (-1)⟩ u).val = -u.Z.val := by
    intro u
    show rnd (rnd (rnd ((ofInt 0 : F64).val * u.X.val) + rnd ((ofInt 0 : F64).val * u.Y.val)) +
      rnd ((ofInt (-1) : F64).val * u.Z.val)) = -u.Z.val
    rw [val_zero, val_neg_one, zero_mul, zero_mul, rnd_zero, add_zero, rnd_zero, zero_add, neg_one_mul, rnd_neg, u.Z.rep,
      rnd_neg, u.Z.rep]
  unfold intersectSegment
  dsimp only
  rw [hd]
  have ht : (div (Vec.Dot ⟨ofInt 0, ofInt 0, ofInt (-1)⟩ (Vec.Sub v0 ⟨ofInt 0, ofInt 0, z⟩)) (Vec.Sub v1 v0).Z : F64).val =
      rnd (rnd (z.val - v0.Z.val) / rnd (v1.Z.val - v0.Z.val)) := by
    show rnd ((Vec.Dot ⟨ofInt 0, ofInt 0, ofInt (-1)⟩ (Vec.Sub v0 ⟨ofInt 0, ofInt 0, z⟩)).val / (Vec.Sub v1 v0).Z.val) = _
    rw [hn]
    show rnd (-rnd (v0.Z.val - z.val) / rnd (v1.Z.val - v0.Z.val)) = _
    rw [← rnd_neg, neg_sub]
  generalize (div (Vec.Dot ⟨ofInt 0, ofInt 0, ofInt (-1)⟩ (Vec.Sub v0 ⟨ofInt 0, ofInt 0, z⟩)) (Vec.Sub v1 v0).Z : F64) = t at *
  have c1 : (lt (neg epsilon) (Vec.Sub v1 v0).Z && lt (Vec.Sub v1 v0).Z epsilon) =
      decide (-rnd flatLimit < rnd (v1.Z.val - v0.Z.val) ∧ rnd (v1.Z.val - v0.Z.val) < rnd flatLimit) := by
    show (decide (rnd (-rnd (1 / 1000000000)) < rnd (v1.Z.val - v0.Z.val)) &&
      decide (rnd (v1.Z.val - v0.Z.val) < rnd (1 / 1000000000))) = _
    rw [rnd_neg, rnd_of_mem (rnd_mem _), Bool.decide_and]
    rfl
  have c2 : (lt t (ofInt 0) || lt (ofInt 1) t) = decide (t.val < 0 ∨ 1 < t.val) := by
    show (decide (t.val < (ofInt 0 : F64).val) || decide ((ofInt 1 : F64).val < t.val)) = _
    rw [val_zero, val_one, Bool.decide_or]
  rw [c1, c2, ht]
  simp only [decide_eq_true_eq]
  rw [← ht]
  rfl

theorem intersectSegment_rat (v0 v1 : Vec ℚ) (z : ℚ) : intersectSegment v0 v1 z =
    if -flatLimit < v1.Z - v0.Z ∧ v1.Z - v0.Z < flatLimit then none
    else if (z - v0.Z) / (v1.Z - v0.Z) < 0 ∨ 1 < (z - v0.Z) / (v1.Z - v0.Z) then none
    else some ⟨edgeAt v0.X v0.Z v1.X v1.Z z, edgeAt v0.Y v0.Z v1.Y v1.Z z, edgeAt v0.Z v0.Z v1.Z v1.Z z⟩ := by
  have hd : ∀ u : Vec ℚ, Vec.Dot ⟨ofInt 0, ofInt 0, ofInt 1⟩ u = u.Z := by
    intro u
    show ((0 : Int) : ℚ) * u.X + ((0 : Int) : ℚ) * u.Y + ((1 : Int) : ℚ) * u.Z = u.Z
    push_cast; ring
  have hn : ∀ u : Vec ℚ, Vec.Dot ⟨ofInt 0, ofInt 0, ofInt (-1)⟩ u = -u.Z := by
    intro u
    show ((0 : Int) : ℚ) * u.X + ((0 : Int) : ℚ) * u.Y + ((-1 : Int) : ℚ) * u.Z = -u.Z
    push_cast; ring
  unfold intersectSegment
  dsimp only
  rw [hd, hn]
  have e1 : (div (-(Vec.Sub v0 ⟨ofInt 0, ofInt 0, z⟩).Z) (Vec.Sub v1 v0).Z : ℚ) = (z - v0.Z) / (v1.Z - v0.Z) := by
    show -(v0.Z - z) / (v1.Z - v0.Z) = _
    rw [neg_sub]
  rw [e1]
  have c1 : (lt (neg epsilon) (Vec.Sub v1 v0).Z && lt (Vec.Sub v1 v0).Z epsilon) =
      decide (-flatLimit < v1.Z - v0.Z ∧ v1.Z - v0.Z < flatLimit) := by
    rw [Bool.decide_and]; rfl
  have c2 : (lt ((z - v0.Z) / (v1.Z - v0.Z)) (ofInt 0) || lt (ofInt 1) ((z - v0.Z) / (v1.Z - v0.Z))) =
      decide ((z - v0.Z) / (v1.Z - v0.Z) < 0 ∨ 1 < (z - v0.Z) / (v1.Z - v0.Z)) := by
    rw [Bool.decide_or]
    show (decide (_ < ((0 : Int) : ℚ)) || decide (((1 : Int) : ℚ) < _)) = _
    push_cast
    rfl
  rw [c1, c2]
  simp only [decide_eq_true_eq]
  rfl

/-- The comparison with the limit is the same in float64. -/
theorem limit_same {x : ℚ} (h : OffLimit x) : (rnd |x| < rnd flatLimit ↔ |x| < flatLimit) ∧
    (rnd flatLimit < rnd |x| ↔ flatLimit < |x|) := by
  have f0 : (0 : ℚ) < flatLimit := by unfold flatLimit; norm_num
  have x0 := abs_nonneg x
  have big : (2 : ℚ) ^ (-1022 : Int) ≤ flatLimit / 2 := by
    refine le_trans (zpow_le_zpow_right₀ (by norm_num) (by norm_num : (-1022 : Int) ≤ -40)) ?_
    unfold flatLimit; norm_num
  have hf := rnd_error (q := flatLimit) (by rw [abs_of_pos f0]; linarith)
  rw [abs_of_pos f0] at hf
  obtain ⟨f1, f2⟩ := abs_le.mp hf
  have c1 : flatLimit / 2 ^ 53 = flatLimit * (1 / 2 ^ 53) := by ring
  rcases h with h | h
  · have lt1 : |x| < flatLimit := by
      have : flatLimit * (1 - 1 / 2 ^ 50) < flatLimit * 1 := mul_lt_mul_of_pos_left (by norm_num) f0
      linarith
    have lt2 : rnd |x| < rnd flatLimit := by
      have := rnd_mono h
      have e0 : (0 : ℚ) < flatLimit * (1 - 1 / 2 ^ 50) := mul_pos f0 (by norm_num)
      have hq := rnd_error (q := flatLimit * (1 - 1 / 2 ^ 50)) (by
        rw [abs_of_pos e0]
        refine big.trans ?_
        have : flatLimit * (1 / 2) ≤ flatLimit * (1 - 1 / 2 ^ 50) := mul_le_mul_of_nonneg_left (by norm_num) f0.le
        linarith)
      rw [abs_of_pos e0] at hq
      obtain ⟨-, q2⟩ := abs_le.mp hq
      have : flatLimit * (1 - 1 / 2 ^ 50) + flatLimit * (1 - 1 / 2 ^ 50) / 2 ^ 53 < flatLimit - flatLimit / 2 ^ 53 := by
        have : flatLimit * ((1 - 1 / 2 ^ 50) + (1 - 1 / 2 ^ 50) / 2 ^ 53) < flatLimit * (1 - 1 / 2 ^ 53) :=
          mul_lt_mul_of_pos_left (by norm_num) f0
        linarith
      linarith
    exact ⟨⟨fun _ => lt1, fun _ => lt2⟩, ⟨fun h => absurd h (not_lt.mpr lt2.le), fun h => absurd h (not_lt.mpr lt1.le)⟩⟩
  · have gt1 : flatLimit < |x| := by
      have : flatLimit * 1 < flatLimit * (1 + 1 / 2 ^ 50) := mul_lt_mul_of_pos_left (by norm_num) f0
      linarith
    have gt2 : rnd flatLimit < rnd |x| := by
      have := rnd_mono h
      have e0 : (0 : ℚ) < flatLimit * (1 + 1 / 2 ^ 50) := mul_pos f0 (by norm_num)
      have hq := rnd_error (q := flatLimit * (1 + 1 / 2 ^ 50)) (by
        rw [abs_of_pos e0]
        refine big.trans ?_
        have : flatLimit * (1 / 2) ≤ flatLimit * (1 + 1 / 2 ^ 50) := mul_le_mul_of_nonneg_left (by norm_num) f0.le
        linarith)
      rw [abs_of_pos e0] at hq
      obtain ⟨q1, -⟩ := abs_le.mp hq
      have : flatLimit + flatLimit / 2 ^ 53 < flatLimit * (1 + 1 / 2 ^ 50) - flatLimit * (1 + 1 / 2 ^ 50) / 2 ^ 53 := by
        have : flatLimit * (1 + 1 / 2 ^ 53) < flatLimit * ((1 + 1 / 2 ^ 50) - (1 + 1 / 2 ^ 50) / 2 ^ 53) :=
          mul_lt_mul_of_pos_left (by norm_num) f0
        linarith
      linarith
    exact ⟨⟨fun h => absurd h (not_lt.mpr gt2.le), fun h => absurd h (not_lt.mpr gt1.le)⟩, ⟨fun _ => gt1, fun _ => gt2⟩⟩

/-- The test for flat edges. -/
theorem flat_same {x : ℚ} (h : OffLimit x) : (-rnd flatLimit < rnd x ∧ rnd x < rnd flatLimit) ↔ (-flatLimit < x ∧ x < flatLimit) := by
  rw [← abs_lt, ← abs_lt, rnd_abs]
  exact (limit_same h).1

/-- The grid coordinates of the cut points. -/
theorem gridCoord_same {R V T X0 s : ℚ} {v t : F64} {X : F64} (hR : 1 / 2 ^ 40 ≤ R) (hV : (2 : ℚ) ^ (-900 : Int) ≤ V) (hs : 1 ≤ s)
    (hv : |v.val - V| ≤ V / 2 ^ 50) (hX0 : |X0| ≤ R) (hX : |X.val - X0| ≤ s * (R / 2 ^ 45))
    (hT0 : |T| ≤ R) (hT : |t.val - T| ≤ R / 2 ^ 48) (ho : OffBorder (V * (4 * s * (R / 2 ^ 45))) (V * (X0 - T))) :
    gridCoord v X t = gridCoord V X0 T := by
  have ge := grid_error hR hV hs hv (val_mem X) hX0 hX (val_mem t) hT0 hT
  rw [gridCoord_rat, ← floor_same ho ge]
  unfold gridCoord
  have hz : (mul v (sub X t) : F64).val = rnd (v.val * rnd (X.val - t.val)) := rfl
  rw [← hz]
  generalize (mul v (sub X t) : F64) = z
  have hf : (floor z : F64).val = ((z.val.floor : Int) : ℚ) := of_exact (binary64_floor (val_mem z))
  show (if 0 ≤ (floor z : F64).val then (floor z : F64).val.floor else (floor z : F64).val.ceil) = z.val.floor
  rw [hf, Rat.floor_intCast, Rat.ceil_intCast, ite_self]

theorem edgeAt_le {R x0 z0 x1 z1 z : ℚ} (h0 : |x0| ≤ R) (h1 : |x1| ≤ R) (ht0 : 0 ≤ (z - z0) / (z1 - z0))
    (ht1 : (z - z0) / (z1 - z0) ≤ 1) : |edgeAt x0 z0 x1 z1 z| ≤ R := by
  unfold edgeAt
  generalize (z - z0) / (z1 - z0) = t at *
  obtain ⟨a1, a2⟩ := abs_le.mp h0
  obtain ⟨b1, b2⟩ := abs_le.mp h1
  have e : x0 + (x1 - x0) * t = x0 * (1 - t) + x1 * t := by ring
  rw [e, abs_le]
  have p1 := mul_le_mul_of_nonneg_right a1 (sub_nonneg.mpr ht1)
  have p2 := mul_le_mul_of_nonneg_right a2 (sub_nonneg.mpr ht1)
  have p3 := mul_le_mul_of_nonneg_right b1 ht0
  have p4 := mul_le_mul_of_nonneg_right b2 ht0
  constructor <;> linarith

theorem between {d z p q : ℚ} (hd : 0 ≤ d) (h : q - p ≠ 0) (m0 : d < |z - p|) (m1 : d < |z - q|) (h0 : 0 ≤ (z - p) / (q - p))
    (h1 : (z - p) / (q - p) ≤ 1) : p < z ↔ z < q := by
  rcases lt_or_gt_of_ne h with hn | hp
  · rw [le_div_iff_of_neg hn, zero_mul] at h0
    rw [div_le_iff_of_neg hn, one_mul] at h1
    constructor <;> intro hh <;> linarith
  · rw [le_div_iff₀ hp, zero_mul] at h0
    rw [div_le_iff₀ hp, one_mul] at h1
    have n0 : z ≠ p := fun e => by rw [e, sub_self, abs_zero] at m0; linarith
    have n1 : z ≠ q := fun e => by rw [e, sub_self, abs_zero] at m1; linarith
    exact ⟨fun _ => lt_of_le_of_ne (by linarith) n1, fun _ => lt_of_le_of_ne (by linarith) n0.symm⟩

/-- An edge in general position is cut by a slice in float64 iff it is cut in exact arithmetic, and in the same cell. -/
theorem edge_same {R : ℚ} {b : BinVOX ℚ} {b' : BinVOX F64} {m : Mesh ℚ} (hn : NearModel R b b')
    (hg : GeneralPosition R b m) {zi : Int} (h0 : 0 ≤ zi) (h1 : zi < b.NZ) {p q : Vec F64} (hp : Within R (exactVec p))
    (hq : Within R (exactVec q)) (he : GeneralEdge R b (exactVec p) (exactVec q)) :
    (intersectSegment p q (sliceHeight b' zi) = none ∧
      intersectSegment (exactVec p) (exactVec q) (sliceHeight b zi) = none) ∨
    ∃ P Q, intersectSegment p q (sliceHeight b' zi) = some P ∧
      intersectSegment (exactVec p) (exactVec q) (sliceHeight b zi) = some Q ∧
      gridCoord b'.VoxelsPerMM P.X b'.TX = gridCoord b.VoxelsPerMM Q.X b.TX ∧
      gridCoord b'.VoxelsPerMM P.Y b'.TY = gridCoord b.VoxelsPerMM Q.Y b.TY := by
  obtain ⟨ho, hc⟩ := he
  rw [intersectSegment_f64, intersectSegment_rat]
  have fs := flat_same ho
  have hz := sliceHeight_f64 hn hg.reach h0 h1
  rw [sliceHeight_rat]
  by_cases hf : -flatLimit < (exactVec q).Z - (exactVec p).Z ∧ (exactVec q).Z - (exactVec p).Z < flatLimit
  · left
    exact ⟨if_pos (fs.mpr hf), if_pos hf⟩
  · have hf' : ¬ (-rnd flatLimit < rnd (q.Z.val - p.Z.val) ∧ rnd (q.Z.val - p.Z.val) < rnd flatLimit) := fun h => hf (fs.mp h)
    rw [if_neg hf', if_neg hf]
    have hsteep : flatLimit ≤ |(exactVec q).Z - (exactVec p).Z| := by
      by_contra hcon
      push Not at hcon
      exact hf (abs_lt.mp hcon)
    obtain ⟨m0, m1, hoff⟩ := hc hsteep zi h0 h1
    obtain ⟨V0, v0, -, -, -⟩ := near_vpmm hg.lo hg.hi hn.pitch
    have hV : (2 : ℚ) ^ (-900 : Int) ≤ b.VoxelsPerMM :=
      (zpow_le_zpow_right₀ (by norm_num) (by norm_num)).trans hg.lo
    obtain ⟨px, py, pz⟩ := hp
    obtain ⟨qx, qy, qz⟩ := hq
    have f0 : (0 : ℚ) < flatLimit := by unfold flatLimit; norm_num
    have dR : |(exactVec q).Z - (exactVec p).Z| ≤ 2 * R := by
      have := abs_sub (exactVec q).Z (exactVec p).Z
      linarith
    have hR : 1 / 2 ^ 40 ≤ R := by
      have : (1 / 2 ^ 40 : ℚ) ≤ flatLimit / 2 := by unfold flatLimit; norm_num
      linarith
    have R0 : 0 < R := lt_of_lt_of_le (by norm_num) hR
    have dz0 : (exactVec q).Z - (exactVec p).Z ≠ 0 := by
      intro h
      rw [h, abs_zero] at hsteep
      linarith
    have hd : |rnd ((exactVec q).Z - (exactVec p).Z) - ((exactVec q).Z - (exactVec p).Z)| ≤
        |(exactVec q).Z - (exactVec p).Z| / 2 ^ 53 := by
      have := add_error (val_mem q.Z) (binary64_neg (val_mem p.Z))
      rwa [← sub_eq_add_neg] at this
    have hnn : |rnd ((sliceHeight b' zi).val - p.Z.val) - (sliceMiddle b zi - (exactVec p).Z)| ≤ 3 / 4 * (R / 2 ^ 45) := by
      have a : |rnd ((sliceHeight b' zi).val - p.Z.val) - ((sliceHeight b' zi).val - p.Z.val)| ≤
          |(sliceHeight b' zi).val - p.Z.val| / 2 ^ 53 := by
        have := add_error (val_mem (sliceHeight b' zi)) (binary64_neg (val_mem p.Z))
        rwa [← sub_eq_add_neg] at this
      have zb : |sliceMiddle b zi| ≤ 2 * R := by
        unfold sliceMiddle
        have z0 : (0 : ℚ) ≤ zi := by exact_mod_cast h0
        have c := abs_add_le b.TZ (((zi : ℚ) + 1 / 2) / b.VoxelsPerMM)
        rw [abs_of_nonneg (by positivity : 0 ≤ ((zi : ℚ) + 1 / 2) / b.VoxelsPerMM)] at c
        have d : ((zi : ℚ) + 1 / 2) / b.VoxelsPerMM ≤ R := by
          refine le_trans (div_le_div_of_nonneg_right ?_ V0.le) hg.top
          have : ((zi + 1 : Int) : ℚ) ≤ b.NZ := by exact_mod_cast h1
          push_cast at this
          linarith
        have := hg.corner.2.2
        linarith
      have e : (exactVec p).Z = p.Z.val := rfl
      have pz' : |p.Z.val| ≤ R := pz
      rw [e]
      clear e m0 m1 hoff hc
      generalize (sliceHeight b' zi).val = z' at *
      generalize sliceMiddle b zi = z at *
      generalize p.Z.val = w at *
      have c : |z' - w| ≤ 4 * R := by
        have c1 := abs_sub z' w
        have c2 : |z'| ≤ |z' - z| + |z| := by
          have := abs_add_le (z' - z) z
          rwa [sub_add_cancel] at this
        have : R / 2 ^ 46 ≤ R / 2 := div_le_div_of_nonneg_left R0.le (by norm_num) (by norm_num)
        linarith
      have d : |rnd (z' - w) - (z - w)| ≤ |rnd (z' - w) - (z' - w)| + |z' - z| := by
        have := abs_add_le (rnd (z' - w) - (z' - w)) (z' - z)
        have e : rnd (z' - w) - (z' - w) + (z' - z) = rnd (z' - w) - (z - w) := by ring
        rwa [e] at this
      have f := div_le_div_of_nonneg_right c (by norm_num : (0 : ℚ) ≤ 2 ^ 53)
      have g : 4 * R / 2 ^ 53 = R / 2 ^ 45 / 64 := by ring
      have i : R / 2 ^ 46 = R / 2 ^ 45 / 2 := by ring
      have : 0 < R / 2 ^ 45 := by positivity
      linarith
    have m1' : 2 * (R / 2 ^ 45) < |sliceMiddle b zi - (exactVec p).Z - ((exactVec q).Z - (exactVec p).Z)| := by
      convert m1 using 2
      ring
    obtain ⟨r1, r2, r3⟩ := ratio R0 dz0 dR hd hnn m0 m1'
    by_cases hcut : (sliceMiddle b zi - (exactVec p).Z) / ((exactVec q).Z - (exactVec p).Z) < 0 ∨
        1 < (sliceMiddle b zi - (exactVec p).Z) / ((exactVec q).Z - (exactVec p).Z)
    · left
      refine ⟨if_pos ?_, if_pos hcut⟩
      rcases hcut with h | h
      · exact Or.inl (r1 h)
      · exact Or.inr (r2 h)
    · right
      have hcut' := hcut
      push Not at hcut'
      obtain ⟨t0, t1, te⟩ := r3 hcut'.1 hcut'.2
      obtain ⟨ox, oy⟩ := hoff (between (by positivity) dz0 m0 m1 hcut'.1 hcut'.2)
      refine ⟨_, _, if_neg ?_, if_neg hcut, ?_, ?_⟩
      · push Not
        exact ⟨t0, t1⟩
      · have pe := point_error hR (val_mem p.X) px (val_mem q.X) qx t0 t1 te
        refine gridCoord_same (s := 1 + |((exactVec q).X - (exactVec p).X) / ((exactVec q).Z - (exactVec p).Z)|) hR hV
          (by linarith [abs_nonneg (((exactVec q).X - (exactVec p).X) / ((exactVec q).Z - (exactVec p).Z))]) hn.pitch
          (edgeAt_le px qx hcut'.1 hcut'.2) ?_ hg.corner.1 hn.tx ox
        refine pe.trans ?_
        rw [abs_div]
        have : R / 2 ^ 48 ≤ R / 2 ^ 45 := div_le_div_of_nonneg_left R0.le (by norm_num) (by norm_num)
        show |(exactVec q).X - (exactVec p).X| * _ + _ ≤ _
        have e : |(exactVec q).X - (exactVec p).X| * (R / 2 ^ 45 / |(exactVec q).Z - (exactVec p).Z|) =
          |(exactVec q).X - (exactVec p).X| / |(exactVec q).Z - (exactVec p).Z| * (R / 2 ^ 45) := by ring
        rw [e]
        linarith
      · have pe := point_error hR (val_mem p.Y) py (val_mem q.Y) qy t0 t1 te
        refine gridCoord_same (s := 1 + |((exactVec q).Y - (exactVec p).Y) / ((exactVec q).Z - (exactVec p).Z)|) hR hV
          (by linarith [abs_nonneg (((exactVec q).Y - (exactVec p).Y) / ((exactVec q).Z - (exactVec p).Z))]) hn.pitch
          (edgeAt_le py qy hcut'.1 hcut'.2) ?_ hg.corner.2.1 hn.ty oy
        refine pe.trans ?_
        rw [abs_div]
        have : R / 2 ^ 48 ≤ R / 2 ^ 45 := div_le_div_of_nonneg_left R0.le (by norm_num) (by norm_num)
        show |(exactVec q).Y - (exactVec p).Y| * _ + _ ≤ _
        have e : |(exactVec q).Y - (exactVec p).Y| * (R / 2 ^ 45 / |(exactVec q).Z - (exactVec p).Z|) =
          |(exactVec q).Y - (exactVec p).Y| / |(exactVec q).Z - (exactVec p).Z| * (R / 2 ^ 45) := by ring
        rw [e]
        linarith

/-- A triangle in general position: the same pair of cells. -/
theorem tri_same {R : ℚ} {b : BinVOX ℚ} {b' : BinVOX F64} {m : Mesh F64} (hn : NearModel R b b')
    (hg : GeneralPosition R b (exactMesh m)) {zi : Int} (h0 : 0 ≤ zi) (h1 : zi < b.NZ) {p : Nat} (hp : p ∈ m.Triangles) :
    (intersectTriZPlane p (m.heap p) (sliceHeight b' zi) = none ∧
      intersectTriZPlane p ((exactMesh m).heap p) (sliceHeight b zi) = none) ∨
    ∃ P Q, intersectTriZPlane p (m.heap p) (sliceHeight b' zi) = some P ∧
      intersectTriZPlane p ((exactMesh m).heap p) (sliceHeight b zi) = some Q ∧
      pairPoints b' b'.VoxelsPerMM P = pairPoints b b.VoxelsPerMM Q := by
  obtain ⟨w1, w2, w3⟩ := hg.points p hp
  obtain ⟨g1, g2, g3⟩ := hg.edges p hp
  have e1 := edge_same hn hg h0 h1 (p := (m.heap p).V1.Position) (q := (m.heap p).V2.Position) w1 w2 g1
  have e2 := edge_same hn hg h0 h1 (p := (m.heap p).V2.Position) (q := (m.heap p).V3.Position) w2 w3 g2
  have e3 := edge_same hn hg h0 h1 (p := (m.heap p).V3.Position) (q := (m.heap p).V1.Position) w3 w1 g3
  unfold intersectTriZPlane
  dsimp only [exactMesh]
  generalize intersectSegment (m.heap p).V1.Position (m.heap p).V2.Position (sliceHeight b' zi) = r1 at *
  generalize intersectSegment (m.heap p).V2.Position (m.heap p).V3.Position (sliceHeight b' zi) = r2 at *
  generalize intersectSegment (m.heap p).V3.Position (m.heap p).V1.Position (sliceHeight b' zi) = r3 at *
  generalize intersectSegment (exactVec (m.heap p).V1.Position) (exactVec (m.heap p).V2.Position) (sliceHeight b zi) = s1 at *
  generalize intersectSegment (exactVec (m.heap p).V2.Position) (exactVec (m.heap p).V3.Position) (sliceHeight b zi) = s2 at *
  generalize intersectSegment (exactVec (m.heap p).V3.Position) (exactVec (m.heap p).V1.Position) (sliceHeight b zi) = s3 at *
  rcases e1 with ⟨rfl, rfl⟩ | ⟨P1, Q1, rfl, rfl, x1, y1⟩ <;> rcases e2 with ⟨rfl, rfl⟩ | ⟨P2, Q2, rfl, rfl, x2, y2⟩ <;>
    rcases e3 with ⟨rfl, rfl⟩ | ⟨P3, Q3, rfl, rfl, x3, y3⟩ <;> dsimp only
  all_goals first
    | exact Or.inl ⟨rfl, rfl⟩
    | (right; refine ⟨_, _, rfl, rfl, ?_⟩; unfold pairPoints; simp only [x1, y1, x2, y2, x3, y3])
    | (right; refine ⟨_, _, rfl, rfl, ?_⟩; unfold pairPoints; simp only [x1, y1, x2, y2])
    | (right; refine ⟨_, _, rfl, rfl, ?_⟩; unfold pairPoints; simp only [x1, y1, x3, y3])
    | (right; refine ⟨_, _, rfl, rfl, ?_⟩; unfold pairPoints; simp only [x2, y2, x3, y3])

theorem touches_same {R : ℚ} {b : BinVOX ℚ} {b' : BinVOX F64} {m : Mesh F64} (hn : NearModel R b b')
    (hg : GeneralPosition R b (exactMesh m)) {zi : Int} (h0 : 0 ≤ zi) (h1 : zi < b.NZ) (y : Int) (p : Nat) (x : Int) :
    Touches b' m zi y p x ↔ Touches b (exactMesh m) zi y p x := by
  unfold Touches
  rw [hn.ny]
  refine and_congr_right fun hp => and_congr_right fun _ => and_congr_right fun _ => ?_
  rcases tri_same hn hg h0 h1 hp with ⟨e1, e2⟩ | ⟨P, Q, e1, e2, e3⟩
  · rw [e1, e2]
    simp
  · rw [e1, e2]
    simp [e3]

/-- The sign of the normal. -/
theorem crossing_off {m : Mesh F64} {p : Nat} (ho : OffLimit (m.heap p).V1.Normal.X.val) :
    crossing m p = crossing (exactMesh m) p := by
  rw [crossing_rat]
  show _ = if (m.heap p).V1.Normal.X.val < -flatLimit then 1 else if flatLimit < (m.heap p).V1.Normal.X.val then -1 else 0
  have hd : (Vec.Dot (m.heap p).V1.Normal ⟨ofInt (-1), ofInt 0, ofInt 0⟩ : F64).val = -(m.heap p).V1.Normal.X.val := by
    generalize (m.heap p).V1.Normal = u
    show rnd (rnd (rnd (u.X.val * (ofInt (-1) : F64).val) + rnd (u.Y.val * (ofInt 0 : F64).val)) +
      rnd (u.Z.val * (ofInt 0 : F64).val)) = -u.X.val
    rw [val_zero, val_neg_one, mul_zero, mul_zero, rnd_zero, add_zero, add_zero, mul_neg_one, rnd_neg, u.X.rep,
      rnd_neg, u.X.rep, rnd_neg, u.X.rep]
  have hx := (m.heap p).V1.Normal.X.rep
  have hl := (limit_same ho).2
  rw [← rnd_abs, hx] at hl
  unfold crossing
  generalize (Vec.Dot (m.heap p).V1.Normal ⟨ofInt (-1), ofInt 0, ofInt 0⟩ : F64) = d at *
  generalize (m.heap p).V1.Normal.X.val = x at *
  have ep : (epsilon : F64).val = rnd flatLimit := rfl
  have en : (neg epsilon : F64).val = -rnd flatLimit := by
    show rnd (-rnd flatLimit) = _
    rw [rnd_neg, rnd_of_mem (rnd_mem _)]
  have f0 : (0 : ℚ) < flatLimit := by unfold flatLimit; norm_num
  have r0 : 0 ≤ rnd flatLimit := rnd_nonneg f0.le
  have c1 : (lt epsilon d : Bool) = decide (x < -flatLimit) := by
    show decide ((epsilon : F64).val < d.val) = _
    rw [ep, hd, decide_eq_decide]
    constructor
    · intro h
      have : flatLimit < |x| := hl.mp (by rw [abs_of_neg (by linarith)]; exact h)
      rw [abs_of_neg (by linarith)] at this
      linarith
    · intro h
      have := hl.mpr (by rw [abs_of_neg (by linarith)]; linarith)
      rwa [abs_of_neg (by linarith)] at this
  have c2 : (lt d (neg epsilon) : Bool) = decide (flatLimit < x) := by
    show decide (d.val < (neg epsilon : F64).val) = _
    rw [en, hd, decide_eq_decide]
    constructor
    · intro h
      have := hl.mp (by rw [abs_of_pos (by linarith)]; linarith)
      rwa [abs_of_pos (by linarith)] at this
    · intro h
      have := hl.mpr (by rw [abs_of_pos (by linarith)]; linarith)
      rw [abs_of_pos (by linarith)] at this
      linarith
  dsimp only
  rw [c1, c2]
  simp only [decide_eq_true_eq]

theorem crossing_same {R : ℚ} {b : BinVOX ℚ} {m : Mesh F64} (hg : GeneralPosition R b (exactMesh m)) {p : Nat}
    (hp : p ∈ m.Triangles) : crossing m p = crossing (exactMesh m) p := crossing_off (hg.normals p hp)

theorem crossings_kind {tris : List Nat} {T : Nat → Int → Prop} {k k' : Nat → Int} (h : ∀ p ∈ tris, k p = k' p) (c x : Int) :
    crossings tris T k c x = crossings tris T k' c x := by
  unfold crossings
  congr 1
  apply List.filter_congr
  intro p hp
  rw [h p (List.mem_dedup.mp hp)]

/-- **C87.** For a mesh in general position to the grid, voxelizing in float64 gives exactly the voxels of exact
    arithmetic, under every schedule. -/
theorem voxelize_f64 {R : ℚ} {b out : BinVOX ℚ} {b' out' : BinVOX F64} {m : Mesh F64} (hn : NearModel R b b')
    (hg : GeneralPosition R b (exactMesh m)) (h : VoxelizeRun b (exactMesh m) (.ok out)) (h' : VoxelizeRun b' m (.ok out'))
    (k : Key) : out'.white.has k = true ↔ out.white.has k = true := by
  have nz : ¬ zeroDim b := by
    intro hz
    unfold VoxelizeRun at h
    rw [if_pos hz] at h
    cases h
  have nz' : ¬ zeroDim b' := by
    intro hz
    unfold VoxelizeRun at h'
    rw [if_pos hz] at h'
    cases h'
  obtain ⟨c, hc, _, _, hh⟩ := voxelize_exact b (exactMesh m) nz _ h
  injection hc with hc; subst hc
  obtain ⟨c, hc, _, _, hh'⟩ := voxelize_exact b' m nz' _ h'
  injection hc with hc; subst hc
  rw [hh, hh', hn.nz]
  refine and_congr_right fun h0 => and_congr_right fun h1 => ?_
  unfold Filled
  have hT : Touches b' m k.Z k.Y = Touches b (exactMesh m) k.Z k.Y := by
    funext p x
    exact propext (touches_same hn hg h0 h1 k.Y p x)
  have hk : ∀ c x, crossings m.Triangles (Touches b (exactMesh m) k.Z k.Y) (crossing m) c x =
      crossings (exactMesh m).Triangles (Touches b (exactMesh m) k.Z k.Y) (crossing (exactMesh m)) c x :=
    fun c x => crossings_kind (fun p hp => crossing_same hg hp) c x
  have hI : Inside m.Triangles (Touches b (exactMesh m) k.Z k.Y) (crossing m) k.X ↔
      Inside (exactMesh m).Triangles (Touches b (exactMesh m) k.Z k.Y) (crossing (exactMesh m)) k.X := by
    unfold Inside Enters Leaves
    simp only [hk]
  dsimp only
  rw [hT, hI, hn.nx]

/-- A float64 region is near the same region taken as exact numbers. -/
theorem near_exact {b : BinVOX F64} (hs : 0 < b.Scale.val) (hd : 0 < b.Dim) (hd2 : b.Dim ≤ 2 ^ 53)
    (lo : (2 : ℚ) ^ (-899 : Int) ≤ (exactModel b).VoxelsPerMM) {R : ℚ} (hR : 0 ≤ R) : NearModel R (exactModel b) b := by
  have hv : (exactModel b).VoxelsPerMM = (b.Dim : ℚ) / b.Scale.val := by
    unfold BinVOX.VoxelsPerMM vpmmOf
    have hle : ¬ (GoFloat.le (exactModel b).Scale (ofInt 0) = true) := by
      show ¬ (decide (b.Scale.val ≤ ((0 : Int) : ℚ)) = true)
      rw [decide_eq_true_eq, not_le]
      push_cast
      exact hs
    rw [if_neg hle]
    rfl
  have hv' : b.VoxelsPerMM.val = rnd ((b.Dim : ℚ) / b.Scale.val) := by
    unfold BinVOX.VoxelsPerMM vpmmOf
    have hle : ¬ (GoFloat.le b.Scale (ofInt 0) = true) := by
      show ¬ (decide (b.Scale.val ≤ (ofInt 0 : F64).val) = true)
      rw [decide_eq_true_eq, not_le, val_zero]
      exact hs
    rw [if_neg hle]
    show rnd ((ofInt b.Dim : F64).val / b.Scale.val) = _
    rw [show (ofInt b.Dim : F64).val = b.Dim from of_exact (binary64_int (by rw [abs_of_pos hd]; exact hd2))]
  refine ⟨rfl, rfl, rfl, ?_, ?_, ?_, ?_⟩
  · rw [hv'] 
    rw [hv] at lo ⊢
    generalize (b.Dim : ℚ) / b.Scale.val = V at *
    have V0 : 0 < V := lt_of_lt_of_le (by positivity) lo
    have := rnd_error (q := V) (by
      rw [abs_of_pos V0]
      exact (zpow_le_zpow_right₀ (by norm_num) (by norm_num)).trans lo)
    rw [abs_of_pos V0] at this
    refine this.trans (div_le_div_of_nonneg_left V0.le (by norm_num) (by norm_num))
  · show |b.TX.val - b.TX.val| ≤ _
    rw [sub_self, abs_zero]
    positivity
  · show |b.TY.val - b.TY.val| ≤ _
    rw [sub_self, abs_zero]
    positivity
  · show |b.TZ.val - b.TZ.val| ≤ _
    rw [sub_self, abs_zero]
    positivity

end StlDice
