import Verif.Lemmas.Ieee

/-! # Voxelizing in full float64 (C111) -/

namespace StlDice
open Spec GoFloat BinVOX F64 IeeeL

namespace IeeeL

theorem is_pow {x : F64} {y : Ieee} {R : ℚ} {n : Nat} (h : Is x y) (hx : |x.val| ≤ R) (hR : R ≤ 2 ^ n) : IsP n x y :=
  ⟨h, hx.trans hR⟩

/-- A resolution is the same in both. -/
theorem vpmm_is {nx ny nz : Int} {s : F64} {s' : Ieee} (hs : Is s s') (lo : 1 / 2 ^ 200 ≤ (vpmmOf nx ny nz s : F64).val)
    (hi : (vpmmOf nx ny nz s : F64).val ≤ 2 ^ 200) (hd : |dimOf nx ny nz| ≤ 2 ^ 62) :
    IsP 202 (vpmmOf nx ny nz s) (vpmmOf nx ny nz s') := by
  unfold vpmmOf at *
  rw [le_is hs isP_zero.1]
  by_cases hle : (GoFloat.le s (ofInt 0) : Bool) = true
  · rw [if_pos hle, if_pos hle]
    exact isP_one.mono (by norm_num)
  · rw [if_neg hle] at lo hi ⊢
    rw [if_neg hle]
    have h0 : s.val ≠ 0 := by
      intro h0
      apply hle
      show decide (s.val ≤ (ofInt 0 : F64).val) = true
      rw [val_zero, h0]
      simp
    have hdq : |((dimOf nx ny nz : Int) : ℚ)| ≤ 2 ^ 62 := by exact_mod_cast hd
    have hdi := isP_ofInt hdq (by norm_num)
    have hv : (GoFloat.div (ofInt (dimOf nx ny nz)) s : F64).val = rnd ((ofInt (dimOf nx ny nz) : F64).val / s.val) := rfl
    rw [hv] at lo hi
    refine Is.div (c := 201) hdi.1 hs h0 ?_ (by norm_num)
    generalize (ofInt (dimOf nx ny nz) : F64).val / s.val = q at *
    have q0 : 0 < q := by
      by_contra h
      have := rnd_mono (not_lt.mp h)
      rw [rnd_zero] at this
      have : (0 : ℚ) < 1 / 2 ^ 200 := by positivity
      linarith
    rw [abs_of_pos q0]
    by_contra h
    have h1 := rnd_mono (not_le.mp h).le
    have h2 : rnd (2 ^ 201 : ℚ) = 2 ^ 201 := rnd_of_mem ⟨1, 201, by norm_num, by norm_num, by norm_num⟩
    rw [h2] at h1
    have : (2 : ℚ) ^ 200 < 2 ^ 201 := pow_lt_pow_right₀ (by norm_num) (by norm_num)
    linarith

/-- The height of a slice. -/
theorem height_is {v tz : F64} {v' tz' : Ieee} (hv : Is v v') (lo : 1 / 2 ^ 200 ≤ v.val) (ht : IsP 200 tz tz') {zi : Int}
    (hz : |zi| ≤ 2 ^ 62) :
    IsP 269 (add tz (mul (add (lit (1/2)) (ofInt zi)) (div (ofInt 1) v)))
      (add tz' (mul (add (lit (1/2)) (ofInt zi)) (div (ofInt 1) v'))) := by
  have hzq : |((zi : Int) : ℚ)| ≤ 2 ^ 62 := by exact_mod_cast hz
  have v0 : 0 < v.val := lt_of_lt_of_le (by positivity) lo
  have hd : IsP 201 (div (ofInt 1) v) (div (ofInt 1) v') := by
    refine Is.div (c := 200) isP_one.1 hv v0.ne' ?_ (by norm_num)
    rw [val_one, abs_of_pos (by positivity), div_le_iff₀ v0]
    have := mul_le_mul_of_nonneg_left lo (by positivity : (0 : ℚ) ≤ 2 ^ 200)
    rwa [mul_one_div, div_self (by positivity)] at this
  have hs : IsP 65 (add (lit (1/2)) (ofInt zi)) (add (lit (1/2)) (ofInt zi)) :=
    isP_half.add 63 (isP_ofInt hzq (by norm_num)) (by norm_num) (by norm_num) (by norm_num)
  exact ht.add 267 (hs.mul hd (by norm_num)) (by norm_num) (by norm_num) (by norm_num)

theorem dot_is {n : Nat} {a b : Vec F64} {a' b' : Vec Ieee} (hx : IsP 1 a.X a'.X) (hy : IsP 1 a.Y a'.Y) (hz : IsP 1 a.Z a'.Z)
    (kx : IsP n b.X b'.X) (ky : IsP n b.Y b'.Y) (kz : IsP n b.Z b'.Z) (hn : n ≤ 800) :
    IsP (n + 6) (Vec.Dot a b) (Vec.Dot a' b') := by
  have mx := hx.mul kx (by omega)
  have my := hy.mul ky (by omega)
  have mz := hz.mul kz (by omega)
  exact (mx.add (n + 2) my (by omega) (by omega) (by omega)).add (n + 4) mz (by omega) (by omega) (by omega)

theorem dot_is' {n : Nat} {a b : Vec F64} {a' b' : Vec Ieee} (hx : IsP 1 a.X a'.X) (hy : IsP 1 a.Y a'.Y) (hz : IsP 1 a.Z a'.Z)
    (kx : IsP n b.X b'.X) (ky : IsP n b.Y b'.Y) (kz : IsP n b.Z b'.Z) (hn : n ≤ 800) :
    IsP (n + 6) (Vec.Dot b a) (Vec.Dot b' a') := by
  have mx := kx.mul hx (by omega)
  have my := ky.mul hy (by omega)
  have mz := kz.mul hz (by omega)
  exact (mx.add (n + 2) my (by omega) (by omega) (by omega)).add (n + 4) mz (by omega) (by omega) (by omega)

/-- A point within `2^200`. -/
structure IsV (n : Nat) (p : Vec F64) (p' : Vec Ieee) : Prop where
  x : IsP n p.X p'.X
  y : IsP n p.Y p'.Y
  z : IsP n p.Z p'.Z

theorem isV_of {R : ℚ} (hR : R ≤ 2 ^ 200) {p : Vec F64} {p' : Vec Ieee} (h : IsVec p p') (hw : PointWithin R p) : IsV 200 p p' :=
  ⟨is_pow h.1 hw.1 hR, is_pow h.2.1 hw.2.1 hR, is_pow h.2.2 hw.2.2 hR⟩

theorem eps_lower : (1 : ℚ) / 2 ^ 30 ≤ (epsilon : F64).val := by
  have h1 : (epsilon : F64).val = rnd (1 / 1000000000) := rfl
  have h2 : rnd (1 / 2 ^ 30 : ℚ) = 1 / 2 ^ 30 := rnd_of_mem ⟨1, -30, by norm_num, by norm_num, by norm_num⟩
  rw [h1, ← h2]
  exact rnd_mono (by norm_num)

/-- Cutting an edge. -/
theorem segment_is {p q : Vec F64} {p' q' : Vec Ieee} {z : F64} {z' : Ieee} (hp : IsV 200 p p') (hq : IsV 200 q q')
    (hz : IsP 269 z z') :
    (intersectSegment p q z = none ∧ intersectSegment p' q' z' = none) ∨
    ∃ P P' t, intersectSegment p q z = some P ∧ intersectSegment p' q' z' = some P' ∧ IsV 511 P P' ∧
      0 ≤ t ∧ t ≤ 1 ∧ P.X.val = rnd (p.X.val + rnd (rnd (q.X.val - p.X.val) * t)) ∧
      P.Y.val = rnd (p.Y.val + rnd (rnd (q.Y.val - p.Y.val) * t)) := by
  have ux : IsP 202 (sub q.X p.X) (sub q'.X p'.X) := hq.x.sub 200 hp.x (by norm_num) (by norm_num) (by norm_num)
  have uy : IsP 202 (sub q.Y p.Y) (sub q'.Y p'.Y) := hq.y.sub 200 hp.y (by norm_num) (by norm_num) (by norm_num)
  have uz : IsP 202 (sub q.Z p.Z) (sub q'.Z p'.Z) := hq.z.sub 200 hp.z (by norm_num) (by norm_num) (by norm_num)
  have wx : IsP 271 (sub p.X (ofInt 0)) (sub p'.X (ofInt 0)) := hp.x.sub 269 isP_zero (by norm_num) (by norm_num) (by norm_num)
  have wy : IsP 271 (sub p.Y (ofInt 0)) (sub p'.Y (ofInt 0)) := hp.y.sub 269 isP_zero (by norm_num) (by norm_num) (by norm_num)
  have wz : IsP 271 (sub p.Z z) (sub p'.Z z') := hp.z.sub 269 hz (by norm_num) (by norm_num) (by norm_num)
  have hd : IsP 208 (Vec.Dot ⟨ofInt 0, ofInt 0, ofInt 1⟩ (Vec.Sub q p)) (Vec.Dot ⟨ofInt 0, ofInt 0, ofInt 1⟩ (Vec.Sub q' p')) :=
    dot_is (n := 202) isP_zero isP_zero isP_one ux uy uz (by norm_num)
  have hn : IsP 277 (Vec.Dot ⟨ofInt 0, ofInt 0, ofInt (-1)⟩ (Vec.Sub p ⟨ofInt 0, ofInt 0, z⟩))
      (Vec.Dot ⟨ofInt 0, ofInt 0, ofInt (-1)⟩ (Vec.Sub p' ⟨ofInt 0, ofInt 0, z'⟩)) :=
    dot_is (n := 271) isP_zero isP_zero isP_neg_one wx wy wz (by norm_num)
  unfold intersectSegment
  dsimp only
  generalize Vec.Dot (F := F64) ⟨ofInt 0, ofInt 0, ofInt 1⟩ (Vec.Sub q p) = d at *
  generalize Vec.Dot (F := Ieee) ⟨ofInt 0, ofInt 0, ofInt 1⟩ (Vec.Sub q' p') = d' at *
  generalize Vec.Dot (F := F64) ⟨ofInt 0, ofInt 0, ofInt (-1)⟩ (Vec.Sub p ⟨ofInt 0, ofInt 0, z⟩) = n at *
  generalize Vec.Dot (F := Ieee) ⟨ofInt 0, ofInt 0, ofInt (-1)⟩ (Vec.Sub p' ⟨ofInt 0, ofInt 0, z'⟩) = n' at *
  rw [lt_is isP_eps.neg.1 hd.1, lt_is hd.1 isP_eps.1]
  by_cases hf : (lt (neg epsilon) d && lt d epsilon : Bool) = true
  · left
    exact ⟨if_pos hf, if_pos hf⟩
  · rw [if_neg hf, if_neg hf]
    have hdv : (1 : ℚ) / 2 ^ 30 ≤ |d.val| := by
      by_contra hcon
      push Not at hcon
      obtain ⟨c1, c2⟩ := abs_lt.mp hcon
      have he := eps_lower
      apply hf
      rw [Bool.and_eq_true]
      constructor
      · show decide ((neg epsilon : F64).val < d.val) = true
        have : (neg epsilon : F64).val = -(epsilon : F64).val := by
          show rnd (-(epsilon : F64).val) = _
          rw [rnd_neg, (epsilon : F64).rep]
        rw [this, decide_eq_true_eq]
        linarith
      · show decide (d.val < (epsilon : F64).val) = true
        rw [decide_eq_true_eq]
        linarith
    have d0 : 0 < |d.val| := lt_of_lt_of_le (by positivity) hdv
    have ht : IsP 308 (div n d) (div n' d') := by
      refine Is.div (c := 307) hn.1 hd.1 (abs_pos.mp d0) ?_ (by norm_num)
      rw [abs_div, div_le_iff₀ d0]
      have a := mul_le_mul_of_nonneg_left hdv (by positivity : (0 : ℚ) ≤ 2 ^ 307)
      have e : (2 : ℚ) ^ 307 * (1 / 2 ^ 30) = 2 ^ 277 := by
        rw [show (307 : Nat) = 277 + 30 from rfl, pow_add]
        field_simp
      rw [e] at a
      exact hn.2.trans a
    generalize (div n d : F64) = t at *
    generalize (div n' d' : Ieee) = t' at *
    rw [lt_is ht.1 isP_zero.1, lt_is isP_one.1 ht.1]
    by_cases hc : (lt t (ofInt 0) || lt (ofInt 1) t : Bool) = true
    · left
      exact ⟨if_pos hc, if_pos hc⟩
    · right
      rw [if_neg hc, if_neg hc]
      have hc2 : (decide (t.val < (ofInt 0 : F64).val) || decide ((ofInt 1 : F64).val < t.val)) ≠ true := hc
      rw [val_zero, val_one, Ne, Bool.or_eq_true, decide_eq_true_eq, decide_eq_true_eq] at hc2
      push Not at hc2
      have ht1 : IsP 0 t t' := ⟨ht.1, by rw [abs_of_nonneg hc2.1, pow_zero]; exact hc2.2⟩
      refine ⟨_, _, t.val, rfl, rfl, ⟨?_, ?_, ?_⟩, hc2.1, hc2.2, rfl, rfl⟩
      · exact (hp.x.add 203 (ux.mul ht1 (by norm_num)) (by norm_num) (by norm_num) (by norm_num)).mono (by norm_num)
      · exact (hp.y.add 203 (uy.mul ht1 (by norm_num)) (by norm_num) (by norm_num) (by norm_num)).mono (by norm_num)
      · exact (hp.z.add 203 (uz.mul ht1 (by norm_num)) (by norm_num) (by norm_num) (by norm_num)).mono (by norm_num)

theorem point_le {R x y t : ℚ} (hx : |x| ≤ R) (hy : |y| ≤ R) (h0 : 0 ≤ t) (h1 : t ≤ 1) :
    |rnd (x + rnd (rnd (y - x) * t))| ≤ 18 * R := by
  have a1 := rnd_le_double (y - x)
  have a2 := abs_sub y x
  have a3 := rnd_le_double (rnd (y - x) * t)
  have a4 : |rnd (y - x) * t| ≤ |rnd (y - x)| := by
    rw [abs_mul, abs_of_nonneg h0]
    exact mul_le_of_le_one_right (abs_nonneg _) h1
  have a5 := rnd_le_double (x + rnd (rnd (y - x) * t))
  have a6 := abs_add_le x (rnd (rnd (y - x) * t))
  linarith

/-- The grid cell of a point. -/
theorem grid_is {R : ℚ} {v x t : F64} {v' x' t' : Ieee} (hv : IsP 202 v v') (hx : IsP 511 x x') (ht : IsP 200 t t')
    (v0 : 0 ≤ v.val) (hvR : v.val * R ≤ 2 ^ 50) (hxR : |x.val| ≤ 18 * R) (htR : |t.val| ≤ R) :
    gridCoord v' x' t' = gridCoord v x t := by
  unfold gridCoord
  have hs : IsP 513 (sub x t) (sub x' t') := hx.sub 511 ht (by norm_num) (by norm_num) (by norm_num)
  have hm : IsP 716 (mul v (sub x t)) (mul v' (sub x' t')) := IsP.mono (IsP.mul hv hs (by norm_num)) (by norm_num)
  have hb : |(mul v (sub x t) : F64).val| ≤ 2 ^ 57 := by
    show |rnd (v.val * rnd (x.val - t.val))| ≤ 2 ^ 57
    have a1 := rnd_le_double (x.val - t.val)
    have a2 := abs_sub x.val t.val
    have a3 := rnd_le_double (v.val * rnd (x.val - t.val))
    rw [abs_mul, abs_of_nonneg v0] at a3
    have a4 : v.val * |rnd (x.val - t.val)| ≤ v.val * (38 * R) := mul_le_mul_of_nonneg_left (by linarith) v0
    have : (2 : ℚ) ^ 57 = 128 * 2 ^ 50 := by norm_num
    linarith
  have hf : IsP 59 (floor (mul v (sub x t))) (floor (mul v' (sub x' t'))) := IsP.floor (a := 57) ⟨hm.1, hb⟩ (by norm_num)
  exact toInt_is hf (by norm_num)

end IeeeL

section
variable {R : ℚ} {b : BinVOX F64} {c : BinVOX Ieee} {m : Mesh F64} {n : Mesh Ieee}

theorem ieee_vpmm (hb : IsModel b c) (hm : ModerateVox R b m) : IsP 202 b.VoxelsPerMM c.VoxelsPerMM := by
  have h := vpmm_is hb.scale hm.lo hm.hi hm.dim
  unfold BinVOX.VoxelsPerMM at *
  rw [hb.nx, hb.ny, hb.nz]
  exact h

/-- A triangle is cut alike. -/
theorem ieee_tri (hb : IsModel b c) (hn : IsMesh m n) (hm : ModerateVox R b m) {zi : Int} (h0 : 0 ≤ zi) (h1 : zi < b.NZ) {p : Nat}
    (hp : p ∈ m.Triangles) :
    (intersectTriZPlane p (m.heap p) (sliceHeight b zi) = none ∧
      intersectTriZPlane p (n.heap p) (sliceHeight c zi) = none) ∨
    ∃ P Q, intersectTriZPlane p (m.heap p) (sliceHeight b zi) = some P ∧
      intersectTriZPlane p (n.heap p) (sliceHeight c zi) = some Q ∧
      pairPoints c c.VoxelsPerMM Q = pairPoints b b.VoxelsPerMM P := by
  obtain ⟨w1, w2, w3⟩ := hm.points p hp
  obtain ⟨g1, g2, g3⟩ := hn.corners p hp
  have hv := ieee_vpmm hb hm
  have v0 : 0 ≤ b.VoxelsPerMM.val := le_trans (by positivity) hm.lo
  have tx := is_pow hb.tx hm.corner.1 hm.reach
  have ty := is_pow hb.ty hm.corner.2.1 hm.reach
  have tz := is_pow hb.tz hm.corner.2.2 hm.reach
  have hz : IsP 269 (sliceHeight b zi) (sliceHeight c zi) := by
    refine height_is hv.1 hm.lo tz ?_
    have : b.NZ ≤ dimOf b.NX b.NY b.NZ := by
      unfold dimOf
      dsimp only
      split <;> split <;> omega
    have := (abs_le.mp hm.dim).2
    rw [abs_of_nonneg h0]
    omega
  have e1 := segment_is (isV_of hm.reach g1 w1) (isV_of hm.reach g2 w2) hz
  have e2 := segment_is (isV_of hm.reach g2 w2) (isV_of hm.reach g3 w3) hz
  have e3 := segment_is (isV_of hm.reach g3 w3) (isV_of hm.reach g1 w1) hz
  have key : ∀ {p q : Vec F64} {P : Vec F64} {P' : Vec Ieee} {t : ℚ}, PointWithin R p → PointWithin R q → IsV 511 P P' →
      0 ≤ t → t ≤ 1 → P.X.val = rnd (p.X.val + rnd (rnd (q.X.val - p.X.val) * t)) →
      P.Y.val = rnd (p.Y.val + rnd (rnd (q.Y.val - p.Y.val) * t)) →
      gridCoord c.VoxelsPerMM P'.X c.TX = gridCoord b.VoxelsPerMM P.X b.TX ∧
      gridCoord c.VoxelsPerMM P'.Y c.TY = gridCoord b.VoxelsPerMM P.Y b.TY := by
    intro p q P P' t hp hq hP t0 t1 ex ey
    refine ⟨grid_is hv hP.x tx v0 hm.grid ?_ hm.corner.1, grid_is hv hP.y ty v0 hm.grid ?_ hm.corner.2.1⟩
    · rw [ex]
      exact point_le hp.1 hq.1 t0 t1
    · rw [ey]
      exact point_le hp.2.1 hq.2.1 t0 t1
  unfold intersectTriZPlane
  dsimp only
  generalize intersectSegment (m.heap p).V1.Position (m.heap p).V2.Position (sliceHeight b zi) = r1 at *
  generalize intersectSegment (m.heap p).V2.Position (m.heap p).V3.Position (sliceHeight b zi) = r2 at *
  generalize intersectSegment (m.heap p).V3.Position (m.heap p).V1.Position (sliceHeight b zi) = r3 at *
  generalize intersectSegment (n.heap p).V1.Position (n.heap p).V2.Position (sliceHeight c zi) = s1 at *
  generalize intersectSegment (n.heap p).V2.Position (n.heap p).V3.Position (sliceHeight c zi) = s2 at *
  generalize intersectSegment (n.heap p).V3.Position (n.heap p).V1.Position (sliceHeight c zi) = s3 at *
  have e1' : (r1 = none ∧ s1 = none) ∨ ∃ P P', r1 = some P ∧ s1 = some P' ∧
      gridCoord c.VoxelsPerMM P'.X c.TX = gridCoord b.VoxelsPerMM P.X b.TX ∧
      gridCoord c.VoxelsPerMM P'.Y c.TY = gridCoord b.VoxelsPerMM P.Y b.TY :=
    e1.imp id fun ⟨P, P', t, a, b, h, t0, t1, ex, ey⟩ => ⟨P, P', a, b, key w1 w2 h t0 t1 ex ey⟩
  have e2' : (r2 = none ∧ s2 = none) ∨ ∃ P P', r2 = some P ∧ s2 = some P' ∧
      gridCoord c.VoxelsPerMM P'.X c.TX = gridCoord b.VoxelsPerMM P.X b.TX ∧
      gridCoord c.VoxelsPerMM P'.Y c.TY = gridCoord b.VoxelsPerMM P.Y b.TY :=
    e2.imp id fun ⟨P, P', t, a, b, h, t0, t1, ex, ey⟩ => ⟨P, P', a, b, key w2 w3 h t0 t1 ex ey⟩
  have e3' : (r3 = none ∧ s3 = none) ∨ ∃ P P', r3 = some P ∧ s3 = some P' ∧
      gridCoord c.VoxelsPerMM P'.X c.TX = gridCoord b.VoxelsPerMM P.X b.TX ∧
      gridCoord c.VoxelsPerMM P'.Y c.TY = gridCoord b.VoxelsPerMM P.Y b.TY :=
    e3.imp id fun ⟨P, P', t, a, b, h, t0, t1, ex, ey⟩ => ⟨P, P', a, b, key w3 w1 h t0 t1 ex ey⟩
  clear e1 e2 e3
  rcases e1' with ⟨rfl, rfl⟩ | ⟨P1, Q1, rfl, rfl, x1, y1⟩ <;> rcases e2' with ⟨rfl, rfl⟩ | ⟨P2, Q2, rfl, rfl, x2, y2⟩ <;>
    rcases e3' with ⟨rfl, rfl⟩ | ⟨P3, Q3, rfl, rfl, x3, y3⟩ <;> dsimp only
  all_goals first
    | exact Or.inl ⟨rfl, rfl⟩
    | (right; refine ⟨_, _, rfl, rfl, ?_⟩; unfold pairPoints; simp only [x1, y1, x2, y2, x3, y3])
    | (right; refine ⟨_, _, rfl, rfl, ?_⟩; unfold pairPoints; simp only [x1, y1, x2, y2])
    | (right; refine ⟨_, _, rfl, rfl, ?_⟩; unfold pairPoints; simp only [x1, y1, x3, y3])
    | (right; refine ⟨_, _, rfl, rfl, ?_⟩; unfold pairPoints; simp only [x2, y2, x3, y3])

theorem ieee_touches (hb : IsModel b c) (hn : IsMesh m n) (hm : ModerateVox R b m) {zi : Int} (h0 : 0 ≤ zi) (h1 : zi < b.NZ)
    (y : Int) (p : Nat) (x : Int) : Touches c n zi y p x ↔ Touches b m zi y p x := by
  unfold Touches
  rw [hb.ny, hn.tris]
  refine and_congr_right fun hp => and_congr_right fun _ => and_congr_right fun _ => ?_
  rcases ieee_tri hb hn hm h0 h1 hp with ⟨e1, e2⟩ | ⟨P, Q, e1, e2, e3⟩
  · rw [e1, e2]
    simp
  · rw [e1, e2]
    simp [e3]

theorem ieee_crossing (hn : IsMesh m n) (hm : ModerateVox R b m) {p : Nat} (hp : p ∈ m.Triangles) : crossing n p = crossing m p := by
  have h := isV_of le_rfl (hn.normals p hp) (hm.normals p hp)
  have hd : IsP 206 (Vec.Dot (m.heap p).V1.Normal ⟨ofInt (-1), ofInt 0, ofInt 0⟩)
      (Vec.Dot (n.heap p).V1.Normal ⟨ofInt (-1), ofInt 0, ofInt 0⟩) :=
    dot_is' (n := 200) isP_neg_one isP_zero isP_zero h.x h.y h.z (by norm_num)
  unfold crossing
  dsimp only
  rw [lt_is isP_eps.1 hd.1, lt_is hd.1 isP_eps.neg.1]

/-- **C111.** On finite numbers of moderate size full float64 arithmetic, with its overflows, infinities and NaNs, gives
    exactly the voxels of rounding alone, under every schedule. -/
theorem voxelize_ieee {out : BinVOX F64} {out' : BinVOX Ieee} (hb : IsModel b c) (hn : IsMesh m n) (hm : ModerateVox R b m)
    (h : VoxelizeRun b m (.ok out)) (h' : VoxelizeRun c n (.ok out')) (k : Key) :
    out'.white.has k = true ↔ out.white.has k = true := by
  have nz : ¬ zeroDim b := by
    intro hz
    unfold VoxelizeRun at h
    rw [if_pos hz] at h
    cases h
  have nz' : ¬ zeroDim c := by
    unfold zeroDim at *
    rwa [hb.nx, hb.ny, hb.nz]
  obtain ⟨d, hc, _, _, hh⟩ := voxelize_exact b m nz _ h
  injection hc with hc; subst hc
  obtain ⟨d, hc, _, _, hh'⟩ := voxelize_exact c n nz' _ h'
  injection hc with hc; subst hc
  rw [hh, hh', hb.nz]
  refine and_congr_right fun h0 => and_congr_right fun h1 => ?_
  unfold Filled
  have hT : Touches c n k.Z k.Y = Touches b m k.Z k.Y := by
    funext p x
    exact propext (ieee_touches hb hn hm h0 h1 k.Y p x)
  have hk : ∀ i x, crossings n.Triangles (Touches b m k.Z k.Y) (crossing n) i x =
      crossings m.Triangles (Touches b m k.Z k.Y) (crossing m) i x := by
    intro i x
    rw [hn.tris]
    exact crossings_kind (fun p hp => ieee_crossing hn hm hp) i x
  have hI : Inside n.Triangles (Touches b m k.Z k.Y) (crossing n) k.X ↔
      Inside m.Triangles (Touches b m k.Z k.Y) (crossing m) k.X := by
    unfold Inside Enters Leaves
    simp only [hk]
  dsimp only
  rw [hT, hI, hb.nx]

end
end StlDice
