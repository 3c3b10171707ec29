import Verif.Spec.AxisMesh
import Verif.Props.FloatMesh
import Verif.Props.VoxelMesh
import Verif.Props.VoxcutOut
import Verif.Props.FloatFiles
import Verif.Model.Float32

/-! # C94: the mesh of voxcut -ostl in float64 and in its file -/

namespace StlDice
open Spec BinVOX GoFloat F64

theorem closedAfterCuts_of_axis {ts : List (Tri (Vec ℚ))} (h : ClosedAfterAxisCuts ts) : ClosedAfterCuts ts := by
  obtain ⟨cuts, h1, h2, h3⟩ := h
  exact ⟨cuts, h1, fun x hx => (h2 x hx).1, h3⟩

theorem axisCuts_of_closed {ts : List (Tri (Vec ℚ))} (h : Closed ts) : ClosedAfterAxisCuts ts := by
  refine ⟨List.replicate (ts.flatMap triEdges).length [], by simp, ?_, ?_⟩
  · intro x hx
    have := List.eq_of_mem_replicate (List.of_mem_zip hx).2
    rw [this]
    exact ⟨trivial, .inl rfl⟩
  · have e : ∀ E : List (Vec ℚ × Vec ℚ), ((E.zip (List.replicate E.length [])).flatMap fun x => pieces x.1.2 x.1.1 x.2) = E := by
      intro E
      induction E with
      | nil => rfl
      | cons a E ih =>
        rw [List.length_cons, List.replicate_succ, List.zip_cons_cons, List.flatMap_cons, ih]
        rfl
    rw [e]
    exact h

/-- A number between two others stays between them. -/
theorem between_mono {f : ℚ → ℚ} (hf : Monotone f) {a b s : ℚ} (h0 : 0 ≤ s) (h1 : s ≤ 1) :
    ∃ c : ℚ, 0 ≤ c ∧ c ≤ 1 ∧ f (a + s * (b - a)) = f a + c * (f b - f a) := by
  have hb : (f a ≤ f (a + s * (b - a)) ∧ f (a + s * (b - a)) ≤ f b) ∨
      (f b ≤ f (a + s * (b - a)) ∧ f (a + s * (b - a)) ≤ f a) := by
    rcases le_total a b with h | h
    · exact .inl ⟨hf (by nlinarith), hf (by nlinarith)⟩
    · exact .inr ⟨hf (by nlinarith), hf (by nlinarith)⟩
  generalize f (a + s * (b - a)) = y at *
  by_cases he : f b = f a
  · refine ⟨0, le_refl _, zero_le_one, ?_⟩
    rcases hb with ⟨h1, h2⟩ | ⟨h1, h2⟩ <;> linarith
  · have hne : f b - f a ≠ 0 := sub_ne_zero.mpr he
    refine ⟨(y - f a) / (f b - f a), ?_, ?_, by field_simp; ring⟩
    · rcases hb with ⟨h1, h2⟩ | ⟨h1, h2⟩
      · exact div_nonneg (by linarith) (by linarith)
      · exact div_nonneg_of_nonpos (by linarith) (by linarith)
    · rcases hb with ⟨h1, h2⟩ | ⟨h1, h2⟩
      · exact div_le_one_of_le₀ (by linarith) (by linarith)
      · exact (div_le_one_of_neg (lt_of_le_of_ne (by linarith) hne)).mpr (by linarith)

theorem along_axes {f g h : ℚ → ℚ} (hf : Monotone f) (hg : Monotone g) (hh : Monotone h) (b : Vec ℚ) :
    ∀ (ps : List (Vec ℚ)) (a : Vec ℚ), Along b a ps → AxisEdge (a, b) →
      Along (onAxes f g h b) (onAxes f g h a) (ps.map (onAxes f g h)) := by
  intro ps
  induction ps with
  | nil => intro _ _ _; trivial
  | cons p ps ih =>
    rintro a ⟨⟨c, h0, h1, rfl⟩, hr⟩ ha
    refine ⟨?_, ih _ hr ?_⟩
    · unfold AxisEdge at ha
      dsimp only at ha
      unfold onAxes
      dsimp only
      rcases ha with ⟨e1, e2⟩ | ⟨e1, e2⟩ | ⟨e1, e2⟩
      · obtain ⟨s, s0, s1, e⟩ := between_mono hf (a := a.X) (b := b.X) h0 h1
        exact ⟨s, s0, s1, by rw [e, e1, e2]; simp⟩
      · obtain ⟨s, s0, s1, e⟩ := between_mono hg (a := a.Y) (b := b.Y) h0 h1
        exact ⟨s, s0, s1, by rw [e, e1, e2]; simp⟩
      · obtain ⟨s, s0, s1, e⟩ := between_mono hh (a := a.Z) (b := b.Z) h0 h1
        exact ⟨s, s0, s1, by rw [e, e1, e2]; simp⟩
    · unfold AxisEdge at ha ⊢
      dsimp only at ha ⊢
      rcases ha with ⟨e1, e2⟩ | ⟨e1, e2⟩ | ⟨e1, e2⟩
      · left; rw [e1, e2]; simp
      · right; left; rw [e1, e2]; simp
      · right; right; rw [e1, e2]; simp

/-- If each axis is moved for itself, without changing the order of numbers, a surface whose corners inside edges lie on edges
    along the axes stays such a closed surface. -/
theorem axisCuts_move {f g h : ℚ → ℚ} (hf : Monotone f) (hg : Monotone g) (hh : Monotone h) {ts : List (Tri (Vec ℚ))}
    (hc : ClosedAfterAxisCuts ts) : ClosedAfterAxisCuts (ts.map (moveTri (onAxes f g h))) := by
  obtain ⟨cuts, hl, ha, hc⟩ := hc
  have hz : ((ts.map (moveTri (onAxes f g h))).flatMap triEdges).zip (cuts.map (List.map (onAxes f g h))) =
      ((ts.flatMap triEdges).zip cuts).map (Prod.map (Prod.map (onAxes f g h) (onAxes f g h)) (List.map (onAxes f g h))) := by
    rw [triEdges_move, List.zip_map]
  refine ⟨cuts.map (List.map (onAxes f g h)), ?_, ?_, ?_⟩
  · rw [triEdges_move, List.length_map, List.length_map, hl]
  · rw [hz]
    intro x hx
    obtain ⟨y, hy, rfl⟩ := List.mem_map.mp hx
    obtain ⟨h1, h2⟩ := ha y hy
    rcases h2 with h2 | h2
    · rw [Prod.map_snd, h2]
      exact ⟨trivial, .inl rfl⟩
    · refine ⟨along_axes hf hg hh _ _ _ h1 h2, .inr ?_⟩
      unfold AxisEdge onAxes at *
      dsimp only [Prod.map] at *
      rcases h2 with ⟨e1, e2⟩ | ⟨e1, e2⟩ | ⟨e1, e2⟩
      · left; rw [e1, e2]; exact ⟨rfl, rfl⟩
      · right; left; rw [e1, e2]; exact ⟨rfl, rfl⟩
      · right; right; rw [e1, e2]; exact ⟨rfl, rfl⟩
  · rw [hz]
    rw [balanced_iff_perm] at hc ⊢
    have e : ((((ts.flatMap triEdges).zip cuts).map
        (Prod.map (Prod.map (onAxes f g h) (onAxes f g h)) (List.map (onAxes f g h)))).flatMap fun x => pieces x.1.2 x.1.1 x.2) =
        (((ts.flatMap triEdges).zip cuts).flatMap fun x => pieces x.1.2 x.1.1 x.2).map
          (Prod.map (onAxes f g h) (onAxes f g h)) := by
      rw [List.flatMap_map, List.map_flatMap]
      refine List.flatMap_congr ?_
      intro x _
      exact pieces_map (onAxes f g h) x.1.2 x.2 x.1.1
    rw [e]
    have := hc.map (Prod.map (onAxes f g h) (onAxes f g h))
    rw [List.map_map] at this
    rw [List.map_map]
    exact this

/-! ## The position of a corner -/

theorem place1_val (mmpv t x : F64) :
    (Cmd.place1 mmpv t x).val = rnd (rnd (mmpv.val * x.val) + rnd (rnd (mmpv.val * (1 / 2)) + t.val)) := by
  show rnd (rnd (mmpv.val * x.val) + rnd (rnd (mmpv.val * (lit (1 / 2 : ℚ) : F64).val) + t.val)) = _
  rw [Marching.lit_half]

theorem place1_mono {mmpv t x y : F64} (hm : 0 ≤ mmpv.val) (h : x.val ≤ y.val) :
    (Cmd.place1 mmpv t x).val ≤ (Cmd.place1 mmpv t y).val := by
  rw [place1_val, place1_val]
  have := rnd_mono (mul_le_mul_of_nonneg_left h hm)
  exact rnd_mono (by linarith)

/-- The computed position is off by a few units in the last place. -/
theorem place1_close {v0 : ℚ} {v t x : F64} (h1 : (2 : ℚ) ^ (-900 : Int) ≤ v0) (h2 : v0 ≤ 2 ^ (900 : Int)) (hv : v.val = rnd v0) :
    CloseAt v0 t.val (1 / v0 * x.val + (1 / v0 * (1 / 2) + t.val)) (Cmd.place1 (div (ofInt 1) v) t x).val := by
  rw [place1_val]
  have em : (div (ofInt 1) v : F64).val = rnd (1 / v.val) := by
    show rnd ((ofInt 1 : F64).val / v.val) = _
    have : (ofInt 1 : F64).val = 1 := by decide +kernel
    rw [this]
  rw [em]
  have v0p : 0 < v0 := lt_of_lt_of_le (by positivity) h1
  have hw : 0 < 1 / v0 := by positivity
  have tiny : (2 : ℚ) ^ (-1075 : Int) ≤ 1 / v0 / 2 ^ 53 := by
    have : (2 : ℚ) ^ (-900 : Int) ≤ 1 / v0 := by
      rw [le_div_iff₀ v0p]
      exact (tau_ok h2).2.2
    have e : (2 : ℚ) ^ (-1075 : Int) ≤ 2 ^ (-900 : Int) / 2 ^ 53 := by
      rw [le_div_iff₀ (by positivity), show (2 : ℚ) ^ 53 = 2 ^ (53 : Int) by norm_num, ← zpow_add₀ (by norm_num)]
      exact zpow_le_zpow_right₀ (by norm_num) (by norm_num)
    refine e.trans ?_
    exact div_le_div_of_nonneg_right this (by positivity)
  have hm : |rnd (1 / v.val) - 1 / v0| ≤ 4 / 2 ^ 53 * (1 / v0) := by
    have := prod_error (s := 1) h1 h2 hv (.inr (by norm_num))
    rw [one_mul, rnd_rnd, abs_of_pos hw] at this
    exact this
  unfold CloseAt
  generalize rnd (1 / v.val) = m at *
  generalize 1 / v0 = w at *
  have mle : |m| ≤ w * (1 + 4 / 2 ^ 53) := by
    have := abs_le.mp hm
    rw [abs_le]
    constructor <;> nlinarith
  have prod : ∀ s : ℚ, |rnd (m * s) - w * s| ≤ 6 / 2 ^ 53 * (w * |s|) + 2 ^ (-1075 : Int) := by
    intro s
    have r := rnd_error_abs (m * s)
    have a1 : |m * s| ≤ w * (1 + 4 / 2 ^ 53) * |s| := by
      rw [abs_mul]
      exact mul_le_mul_of_nonneg_right mle (abs_nonneg s)
    have a2 : |m * s - w * s| ≤ 4 / 2 ^ 53 * w * |s| := by
      rw [← sub_mul, abs_mul]
      exact mul_le_mul_of_nonneg_right hm (abs_nonneg s)
    have a3 : |rnd (m * s) - w * s| ≤ |rnd (m * s) - m * s| + |m * s - w * s| := abs_sub_le _ _ _
    have ws : 0 ≤ w * |s| := mul_nonneg hw.le (abs_nonneg s)
    have a4 : |m * s| ≤ (w * |s|) * (1 + 4 / 2 ^ 53) := by linarith [a1]
    have a5 : |m * s - w * s| ≤ 4 / 2 ^ 53 * (w * |s|) := by linarith [a2]
    generalize w * |s| = q at *
    generalize (2 : ℚ) ^ (-1075 : Int) = ε at *
    have : |m * s| / 2 ^ 53 ≤ 2 / 2 ^ 53 * q := by
      have : q * (1 + 4 / 2 ^ 53) ≤ 2 * q := by nlinarith
      linarith
    linarith
  have p1 := prod x.val
  have p2 := prod (1 / 2)
  rw [abs_of_pos (by norm_num : (0 : ℚ) < 1 / 2)] at p2
  have b1 : Binary64 (rnd (m * x.val)) := rnd_mem _
  have b2 : Binary64 (rnd (m * (1 / 2))) := rnd_mem _
  generalize rnd (m * x.val) = p at *
  generalize rnd (m * (1 / 2)) = hf at *
  have c1 := add_error b2 (val_mem t)
  have b3 : Binary64 (rnd (hf + t.val)) := rnd_mem _
  generalize rnd (hf + t.val) = c at *
  have r1 := add_error b1 b3
  generalize rnd (p + c) = r at *
  have hX : |w * x.val| = w * |x.val| := by rw [abs_mul, abs_of_pos hw]
  generalize w * x.val = X at *
  rw [← hX] at p1
  generalize (2 : ℚ) ^ (-1075 : Int) = ε at *
  generalize t.val = T at *
  have e1 : X + (w * (1 / 2) + T) - T = X + w / 2 := by ring
  rw [e1]
  have k1 := abs_le.mp p1
  have k2 := abs_le.mp p2
  have s1 : |X| ≤ |X + w / 2| + w / 2 := by
    have := abs_sub_le X (X + w / 2) 0
    have h : X - (X + w / 2) = -(w / 2) := by ring
    rw [h, abs_neg, abs_of_pos (by linarith : 0 < w / 2), sub_zero, sub_zero] at this
    linarith
  have q0 := abs_nonneg X
  have q1 := abs_nonneg T
  have q2 := abs_nonneg (X + w / 2)
  have s2 : |hf + T| ≤ w + |T| := by
    have := abs_add_le hf T
    have : |hf| ≤ w := abs_le.mpr ⟨by linarith, by linarith⟩
    linarith
  have s3 : |p| ≤ 2 * |X| + w := by
    have := abs_sub_le p X 0
    rw [sub_zero, sub_zero] at this
    have : 6 / 2 ^ 53 * |X| ≤ |X| := by nlinarith
    linarith
  have s4 : |c| ≤ 2 * (w + |T|) := by
    have := abs_sub_le c (hf + T) 0
    rw [sub_zero, sub_zero] at this
    have : |hf + T| / 2 ^ 53 ≤ |hf + T| := div_le_self (abs_nonneg _) (by norm_num)
    linarith
  have s5 : |p + c| ≤ 2 * |X| + 3 * w + 2 * |T| := by
    have := abs_add_le p c
    linarith
  have k3 := abs_le.mp c1
  have k4 := abs_le.mp r1
  generalize |X| = aX at *
  generalize |T| = aT at *
  generalize |X + w / 2| = aY at *
  generalize |p + c| = apc at *
  generalize |hf + T| = ah at *
  rw [abs_le]
  constructor <;> linarith

namespace Cmd

theorem toMesh_close {b : BinVOX F64} (ho : Ordinary b) (ts : List (Tri (Vec F64))) :
    List.Forall₂ (CloseTri (exactModel b)) ((exactTris ts).map (moveTri (place (exactModel b)))) (ts.map (moveTri (place b))) := by
  unfold exactTris
  rw [List.map_map]
  apply forall₂_map
  intro t _
  have key : ∀ p : Vec F64, CloseTo (exactModel b) (place (exactModel b) (exactVec p)) (place b p) := by
    intro p
    rw [place_affine]
    have hv := vpmm_val ho.2.2
    exact ⟨place1_close ho.1 ho.2.1 hv, place1_close ho.1 ho.2.1 hv, place1_close ho.1 ho.2.1 hv⟩
  exact ⟨key _, key _, key _⟩

/-- **C94.** `ToMesh` in float64 is `ToMesh` in exact arithmetic with each axis moved for itself: without changing the order of
    the numbers on it, and by a few units in the last place only. -/
theorem toMesh_f64 {lib : GL F64} {b : BinVOX F64} {tris : List (Tri (Vec F64))} (ho : Ordinary b) (h : ToMeshRun lib b tris) :
    ∃ ks, (∀ k, k ∈ ks ↔ Present b k) ∧
      List.Forall₂ (CloseTri (exactModel b)) ((exactTris (lib.voxelMesh ks)).map (moveTri (place (exactModel b)))) tris ∧
      ∃ f g h : ℚ → ℚ, Monotone f ∧ Monotone g ∧ Monotone h ∧
        exactTris tris = ((exactTris (lib.voxelMesh ks)).map (moveTri (place (exactModel b)))).map (moveTri (onAxes f g h)) := by
  obtain ⟨wo, co, hw, hc, rfl⟩ := h
  refine ⟨wo ++ co, Marching.present_iff b hw hc, ?_, ?_⟩
  · exact toMesh_close ho _
  · have v0p : 0 < (exactModel b).VoxelsPerMM := lt_of_lt_of_le (by positivity) ho.1
    have hm : 0 ≤ (div (ofInt 1) b.VoxelsPerMM : F64).val := by
      show 0 ≤ rnd ((ofInt 1 : F64).val / b.VoxelsPerMM.val)
      have e1 : (ofInt 1 : F64).val = 1 := by decide +kernel
      rw [e1, vpmm_val ho.2.2]
      refine rnd_nonneg ?_
      exact div_nonneg zero_le_one (rnd_nonneg v0p.le)
    let f (t : F64) (y : ℚ) : ℚ := (place1 (div (ofInt 1) b.VoxelsPerMM) t (of ((y - t.val) * (exactModel b).VoxelsPerMM - 1 / 2))).val
    have mono : ∀ t, Monotone (f t) := by
      intro t x y hxy
      refine place1_mono hm ?_
      exact rnd_mono (by nlinarith)
    have hit : ∀ t x : F64, f t (1 / (exactModel b).VoxelsPerMM * x.val + (1 / (exactModel b).VoxelsPerMM * (1 / 2) + t.val)) =
        (place1 (div (ofInt 1) b.VoxelsPerMM) t x).val := by
      intro t x
      dsimp only [f]
      congr 2
      have : (1 / (exactModel b).VoxelsPerMM * x.val + (1 / (exactModel b).VoxelsPerMM * (1 / 2) + t.val) - t.val) *
          (exactModel b).VoxelsPerMM - 1 / 2 = x.val := by
        field_simp
        ring
      rw [this]
      exact F64.ext (rnd_of_mem (val_mem x))
    refine ⟨f b.TX, f b.TY, f b.TZ, mono _, mono _, mono _, ?_⟩
    unfold exactTris
    rw [List.map_map, List.map_map, List.map_map]
    refine List.map_congr_left ?_
    intro t _
    have key : ∀ p : Vec F64, exactVec (place b p) = onAxes (f b.TX) (f b.TY) (f b.TZ) (place (exactModel b) (exactVec p)) := by
      intro p
      rw [place_affine]
      exact (congr (congr (congrArg Vec.mk (hit b.TX p.X)) (hit b.TY p.Y)) (hit b.TZ p.Z)).symm
    exact (congr (congr (congrArg Tri.mk (key t.V1)) (key t.V2)) (key t.V3) :
      (⟨exactVec (place b t.V1), exactVec (place b t.V2), exactVec (place b t.V3)⟩ : Tri (Vec ℚ)) = ⟨_, _, _⟩)

theorem place_rat_axes (b : BinVOX ℚ) : place b = onAxes (place1 (1 / b.VoxelsPerMM) b.TX) (place1 (1 / b.VoxelsPerMM) b.TY)
    (place1 (1 / b.VoxelsPerMM) b.TZ) := by
  funext p
  unfold place onAxes
  dsimp only
  have : (div (ofInt 1) b.VoxelsPerMM : ℚ) = 1 / b.VoxelsPerMM := by
    show (((1 : Int) : ℚ)) / _ = _
    rw [Int.cast_one]
  rw [this]

theorem place1_rat_mono {m t : ℚ} (hm : 0 ≤ m) : Monotone (place1 m t) := by
  intro x y h
  show m * x + _ ≤ m * y + _
  have := mul_le_mul_of_nonneg_left h hm
  linarith

/-- **C94.** If the library meshes unit cubes correctly, `ToMesh` in float64 gives, for every map order, a closed mesh, which
    is — triangle by triangle, up to the last few bits — an exact mesh of the skin of the model's voxels in their place. -/
theorem toMesh_closed_f64 {lib : GL F64} {b : BinVOX F64} {tris : List (Tri (Vec F64))} (ho : Ordinary b) (h : ToMeshRun lib b tris)
    (hlib : ∀ ks : List Key, (∀ k, k ∈ ks ↔ Present b k) → VoxelMesher lib.voxelMesh ks) :
    ClosedAfterAxisCuts (exactTris tris) ∧
    ∃ ex : List (Tri (Vec ℚ)), List.Forall₂ (CloseTri (exactModel b)) ex tris ∧
      ClosedAfterCuts ex ∧ (∀ t ∈ ex, OnSkin (exactModel b) t) ∧
      ∀ vox : List Key, vox.Nodup → (∀ k, k ∈ vox ↔ Present b k) → volume ex = vox.length * (1 / (exactModel b).VoxelsPerMM) ^ 3 := by
  have v0p : 0 < (exactModel b).VoxelsPerMM := lt_of_lt_of_le (by positivity) ho.1
  have hm : 0 ≤ 1 / (exactModel b).VoxelsPerMM := by positivity
  constructor
  · obtain ⟨ks, hk, -, f, g, k, hf, hg, hh, e⟩ := toMesh_f64 ho h
    rw [e]
    refine axisCuts_move hf hg hh ?_
    rw [place_rat_axes]
    exact axisCuts_move (place1_rat_mono hm) (place1_rat_mono hm) (place1_rat_mono hm) (hlib ks hk).2
  · obtain ⟨wo, co, hw, hc, rfl⟩ := h
    have hk := Marching.present_iff b hw hc
    have hrun : ToMeshRun (F := F64) lib b ((lib.voxelMesh (wo ++ co)).map (moveTri (place b))) := ⟨wo, co, hw, hc, rfl⟩
    refine ⟨(exactTris (lib.voxelMesh (wo ++ co))).map (moveTri (place (exactModel b))), ?_, ?_⟩
    · generalize lib.voxelMesh (wo ++ co) = ts
      exact toMesh_close ho ts
    · have hrunQ : ToMeshRun (F := ℚ) ⟨fun _ => 0, fun t => t.V1, fun ks => exactTris (lib.voxelMesh ks)⟩ (exactModel b)
          ((exactTris (lib.voxelMesh (wo ++ co))).map (moveTri (place (exactModel b)))) :=
        ⟨wo, co, hw, by rw [exact_color_keys]; exact hc, rfl⟩
      obtain ⟨h1, h2, h3⟩ := toMesh_exact hrunQ v0p (by
        intro ks hks
        exact (hlib ks fun k => (hks k).trans (Manifold.exact_present b k)).1)
      exact ⟨h1, h2, fun vox hn hv => h3 vox hn fun k => (hv k).trans (Manifold.exact_present b k).symm⟩

/-! ## The file -/

theorem rnd32_mono : Monotone rnd32 := by
  intro x y h
  by_contra hc
  push Not at hc
  have n1 : |x - rnd32 x| ≤ |x - rnd32 y| := rndTo_nearest (by norm_num) x (rndTo_mem y)
  have n2 : |y - rnd32 y| ≤ |y - rnd32 x| := rndTo_nearest (by norm_num) y (rndTo_mem x)
  have hx : (rnd32 x + rnd32 y) / 2 ≤ x := by
    by_contra hlt
    push Not at hlt
    rw [abs_of_nonpos (by linarith : x - rnd32 x ≤ 0)] at n1
    rcases le_total 0 (x - rnd32 y) with h0 | h0
    · rw [abs_of_nonneg h0] at n1; linarith
    · rw [abs_of_nonpos h0] at n1; linarith
  have hy : y ≤ (rnd32 x + rnd32 y) / 2 := by
    by_contra hlt
    push Not at hlt
    rw [abs_of_nonneg (by linarith : 0 ≤ y - rnd32 y)] at n2
    rcases le_total 0 (y - rnd32 x) with h0 | h0
    · rw [abs_of_nonneg h0] at n2; linarith
    · rw [abs_of_nonpos h0] at n2; linarith
  have : x = y := by linarith
  rw [this] at hc
  exact lt_irrefl _ hc

/-- No coordinate of the triangles reaches `2^127`. -/
def Below127 (ts : List (Tri (Vec F64))) : Prop :=
  ∀ t ∈ ts, ∀ p, p = t.V1 ∨ p = t.V2 ∨ p = t.V3 → |p.X.val| < 2 ^ 127 ∧ |p.Y.val| < 2 ^ 127 ∧ |p.Z.val| < 2 ^ 127

theorem asFloat32_axes {bits : F64 → Nat} (hb : ∀ a, bits a = encode32 a.val) {p : Vec F64}
    (h : |p.X.val| < 2 ^ 127 ∧ |p.Y.val| < 2 ^ 127 ∧ |p.Z.val| < 2 ^ 127) :
    exactVec (asFloat32 bits f32 p) = onAxes rnd32 rnd32 rnd32 (exactVec p) := by
  have key : ∀ a : F64, |a.val| < 2 ^ 127 → (f32 (bits a % 4294967296)).val = rnd32 a.val := by
    intro a ha
    rw [hb, f32_encode ha, of_val]
    exact rnd_of_mem (binary64_of_32 (rndTo_mem _))
  unfold exactVec asFloat32 onAxes
  dsimp only
  rw [key _ h.1, key _ h.2.1, key _ h.2.2]

theorem tris_f32 {bits : F64 → Nat} (hb : ∀ a, bits a = encode32 a.val) {tris : List (Tri (Vec F64))} (hs : Below127 tris) :
    exactTris (tris.map (moveTri (asFloat32 bits f32))) = (exactTris tris).map (moveTri (onAxes rnd32 rnd32 rnd32)) := by
  unfold exactTris
  rw [List.map_map, List.map_map]
  refine List.map_congr_left ?_
  intro t ht
  have k1 := asFloat32_axes hb (hs t ht _ (.inl rfl))
  have k2 := asFloat32_axes hb (hs t ht _ (.inr (.inl rfl)))
  have k3 := asFloat32_axes hb (hs t ht _ (.inr (.inr rfl)))
  exact (congr (congr (congrArg Tri.mk k1) k2) k3 : (⟨_, _, _⟩ : Tri (Vec ℚ)) = ⟨_, _, _⟩)

/-- **C94.** In the STL file the mesh is closed too: rounding to float32 does not change the order of numbers. -/
theorem stl_closed_f32 {lib : GL F64} (hb : ∀ a, lib.bits a = encode32 a.val) {parseF : Bytes → F64} {tris : List (Tri (Vec F64))}
    (hl : (lib.stl tris).length < 84 + 50 * 4294967296) (hs : Below127 tris) (hc : ClosedAfterAxisCuts (exactTris tris)) :
    ∃ ts, StlText.stlToMesh f32 parseF (lib.stl tris) = .ok ts ∧
      exactTris ts = (exactTris tris).map (moveTri (onAxes rnd32 rnd32 rnd32)) ∧ ClosedAfterAxisCuts (exactTris ts) := by
  refine ⟨_, stl_parses lib tris hl, ?_⟩
  have e := tris_f32 hb hs
  exact ⟨e, by rw [e]; exact axisCuts_move rnd32_mono rnd32_mono rnd32_mono hc⟩

/-- **C94.** `voxcut -ostl` without `-manifold`, in float64 and with the file in float32: the file holds a closed mesh; before
    the rounding to float32 it is, up to the last few bits, an exact mesh of the skin of the base voxels in the closed box
    `[s, s+c]` that no cut has, at their place in the world, and encloses their volume. -/
theorem voxcut_cubes_f64 {lib : GL F64} {d d' : Disk} {fl : CutFlags} (h : VoxcutRun (F := F64) lib d fl d' .done)
    (ho : fl.ostl ≠ []) (hman : fl.manifold = false) {base : Bytes} {cuts : List Bytes}
    (hfl : fl.files = base :: cuts) {bw : BinVOX F64} (hbw : Holds d base bw) (hord : Ordinary bw) {whole : Bytes → BinVOX F64}
    (hcw : ∀ c ∈ cuts, Holds d c (whole c))
    (hn : 0 ≤ fl.region.sx ∧ 0 ≤ fl.region.sy ∧ 0 ≤ fl.region.sz ∧ 0 ≤ fl.region.cx ∧ 0 ≤ fl.region.cy ∧ 0 ≤ fl.region.cz)
    (hlib : ∀ ks : List Key, (∀ k, k ∈ ks ↔ Vox bw k ∧ InClosed ⟨fl.region.sx, fl.region.sy, fl.region.sz,
        clampCount fl.region.cx bw.NX, clampCount fl.region.cy bw.NY, clampCount fl.region.cz bw.NZ⟩ k ∧
        ∀ c ∈ cuts, ¬ Vox (whole c) k) → VoxelMesher lib.voxelMesh ks)
    (hb : ∀ a, lib.bits a = encode32 a.val) {parseF : Bytes → F64} :
    ∃ b tris, d' fl.ostl = some (lib.stl tris) ∧ b.TX = bw.TX ∧ b.TY = bw.TY ∧ b.TZ = bw.TZ ∧
      (exactModel b).VoxelsPerMM = (exactModel bw).VoxelsPerMM ∧
      (∀ k, Present b k ↔ Vox bw k ∧ InClosed ⟨fl.region.sx, fl.region.sy, fl.region.sz, clampCount fl.region.cx bw.NX,
        clampCount fl.region.cy bw.NY, clampCount fl.region.cz bw.NZ⟩ k ∧ ∀ c ∈ cuts, ¬ Vox (whole c) k) ∧
      (∃ ex : List (Tri (Vec ℚ)), List.Forall₂ (CloseTri (exactModel b)) ex tris ∧
        ClosedAfterCuts ex ∧ (∀ t ∈ ex, OnSkin (exactModel b) t) ∧
        ∀ vox : List Key, vox.Nodup → (∀ k, k ∈ vox ↔ Present b k) →
          volume ex = vox.length * (1 / (exactModel b).VoxelsPerMM) ^ 3) ∧
      ((lib.stl tris).length < 84 + 50 * 4294967296 → Below127 tris →
        ∃ ts, StlText.stlToMesh f32 parseF (lib.stl tris) = .ok ts ∧
          exactTris ts = (exactTris tris).map (moveTri (onAxes rnd32 rnd32 rnd32)) ∧ ClosedAfterCuts (exactTris ts)) := by
  obtain ⟨b, hcm, hs, -, -⟩ := voxcut_done h
  obtain ⟨tris, ht, hf⟩ := hs ho
  rw [hman] at ht
  have ht : ToMeshRun lib b tris := ht
  obtain ⟨⟨e1, e2, e3, e4, e5, e6, e7, e8⟩, hv⟩ := cutModel_exact whiteCancels_f64 hfl hbw hcw hn hcm
  have hp := fun k => (present_vox e8 k).trans (hv k)
  have hvp : (exactModel b).VoxelsPerMM = (exactModel bw).VoxelsPerMM := by
    unfold VoxelsPerMM exactModel
    rw [e1, e2, e3, e7]
  have hob : Ordinary b := by
    unfold Ordinary BinVOX.Dim at hord ⊢
    rw [hvp, e1, e2, e3]
    exact hord
  obtain ⟨k1, k2⟩ := toMesh_closed_f64 hob ht (fun ks hk => hlib ks fun k => (hk k).trans (hp k))
  refine ⟨b, tris, hf, e4, e5, e6, hvp, hp, k2, fun hl h127 => ?_⟩
  obtain ⟨ts, t1, t2, t3⟩ := stl_closed_f32 hb (parseF := parseF) hl h127 k1
  exact ⟨ts, t1, t2, closedAfterCuts_of_axis t3⟩

/-! ## The assumption on the library can be met -/

/-- The point with its coordinates as float64 numbers. -/
def roundVec (p : Vec ℚ) : Vec F64 := ⟨of p.X, of p.Y, of p.Z⟩

/-- A float64 mesher: the two triangles of each face between a voxel and a place without one. -/
def faceMesh64 (ks : List Key) : List (Tri (Vec F64)) := (faceMesh ks).map (moveTri roundVec)

theorem cubeTris_half : ∀ t ∈ cubeTris, ∀ p, p = t.V1 ∨ p = t.V2 ∨ p = t.V3 →
    (p.X = 1 / 2 ∨ p.X = -1 / 2) ∧ (p.Y = 1 / 2 ∨ p.Y = -1 / 2) ∧ (p.Z = 1 / 2 ∨ p.Z = -1 / 2) := by
  have : ∀ t ∈ cubeTris, ∀ p ∈ [t.V1, t.V2, t.V3],
      (p.X = 1 / 2 ∨ p.X = -1 / 2) ∧ (p.Y = 1 / 2 ∨ p.Y = -1 / 2) ∧ (p.Z = 1 / 2 ∨ p.Z = -1 / 2) := by decide +kernel
  intro t ht p hp
  exact this t ht p (by simpa using hp)

/-- Unit cubes have their corners at half numbers, which are float64 numbers. -/
theorem faceMesh64_exact {ks : List Key} (hk : ∀ k ∈ ks, Marching.CellSmall k) : exactTris (faceMesh64 ks) = faceMesh ks := by
  unfold exactTris faceMesh64
  rw [List.map_map]
  refine (List.map_congr_left ?_).trans (List.map_id _)
  intro t ht
  unfold faceMesh at ht
  obtain ⟨k, hkk, ht⟩ := List.mem_flatMap.mp ht
  obtain ⟨e, he, ht⟩ := List.mem_flatMap.mp ht
  obtain ⟨s, hs, rfl⟩ := List.mem_map.mp ht
  have hs := (List.mem_filter.mp hs).1
  have hkk := hk k (List.mem_dedup.mp hkk)
  have one : ∀ (c : Int) (x : ℚ), |c| ≤ 2 ^ 51 → (x = 1 / 2 ∨ x = -1 / 2) → (of (1 * x + (c : ℚ))).val = 1 * x + (c : ℚ) := by
    intro c x hc hx
    refine of_exact ?_
    have hc' := abs_le.mp hc
    rcases hx with rfl | rfl
    · have := binary64_half (n := 2 * c + 1) (abs_le.mpr ⟨by omega, by omega⟩)
      convert this using 1
      push_cast
      ring
    · have := binary64_half (n := 2 * c - 1) (abs_le.mpr ⟨by omega, by omega⟩)
      convert this using 1
      push_cast
      ring
  have key : ∀ p, p = s.V1 ∨ p = s.V2 ∨ p = s.V3 → exactVec (roundVec (moveBy k p)) = moveBy k p := by
    intro p hp
    obtain ⟨h1, h2, h3⟩ := cubeTris_half s hs p hp
    exact (congr (congr (congrArg Vec.mk (one _ _ hkk.1 h1)) (one _ _ hkk.2.1 h2)) (one _ _ hkk.2.2 h3) :
      (⟨_, _, _⟩ : Vec ℚ) = ⟨_, _, _⟩)
  exact (congr (congr (congrArg Tri.mk (key _ (.inl rfl))) (key _ (.inr (.inl rfl)))) (key _ (.inr (.inr rfl))) :
    (⟨_, _, _⟩ : Tri (Vec ℚ)) = ⟨_, _, _⟩)

/-- The assumption on the library holds of `faceMesh64`, for all lists of voxels up to `2^51`. -/
theorem faceMesh64_mesher {ks : List Key} (hk : ∀ k ∈ ks, Marching.CellSmall k) : VoxelMesher faceMesh64 ks := by
  unfold VoxelMesher
  rw [faceMesh64_exact hk]
  exact ⟨faceMesh_isVoxelMesh ks, axisCuts_of_closed (faceMesh_closed ks)⟩

/-- The hypotheses of `toMesh_closed_f64` on a voxel of a grid with three voxels per millimetre: its mesh in float64 is closed,
    where the marching-cubes surface of the same model is not (`marching_cracks`). -/
theorem exToMesh64 : Ordinary Marching.crackModel ∧ ∃ lib : GL F64, (∀ a, lib.bits a = encode32 a.val) ∧
    (∀ ks : List Key, (∀ k, k ∈ ks ↔ Present Marching.crackModel k) → VoxelMesher lib.voxelMesh ks) ∧
    ∃ tris, ToMeshRun lib Marching.crackModel tris := by
  have hv : (exactModel Marching.crackModel).VoxelsPerMM = 3 := by decide +kernel
  refine ⟨⟨?_, ?_, by decide +kernel⟩, ⟨fun a => encode32 a.val, fun t => t.V1, faceMesh64⟩, fun _ => rfl, ?_, ?_⟩
  · rw [hv]
    exact (zpow_le_zpow_right₀ (by norm_num) (by norm_num : (-900 : Int) ≤ 0)).trans (by norm_num)
  · rw [hv]
    exact le_trans (by norm_num : (3 : ℚ) ≤ 2 ^ (2 : Int)) (zpow_le_zpow_right₀ (by norm_num) (by norm_num))
  · intro ks hk
    refine faceMesh64_mesher ?_
    intro k hkk
    have hp := (hk k).mp hkk
    have : k = ⟨0, 0, 0⟩ := by
      have hks := (Marching.present_iff Marching.crackModel (List.Perm.refl _) (List.Perm.refl _) k).mpr hp
      have h : k ∈ ([⟨0, 0, 0⟩] : List Key) := hks
      simpa using h
    subst this
    unfold Marching.CellSmall
    norm_num
  · exact ⟨_, _, _, List.Perm.refl _, List.Perm.refl _, rfl⟩

example : ∃ (lib : GL F64) (tris : List (Tri (Vec F64))), ToMeshRun lib Marching.crackModel tris ∧ ClosedAfterAxisCuts (exactTris tris) ∧
    ∃ ks, (∀ k, k ∈ ks ↔ Present Marching.crackModel k) ∧
      List.Forall₂ (CloseTri (exactModel Marching.crackModel)) ((exactTris (lib.voxelMesh ks)).map (moveTri (place (exactModel Marching.crackModel)))) tris := by
  obtain ⟨ho, lib, hb, hlib, tris, hr⟩ := exToMesh64
  obtain ⟨ks, h1, h2, _⟩ := toMesh_f64 ho hr
  exact ⟨lib, tris, hr, (toMesh_closed_f64 ho hr hlib).1, ks, h1, h2⟩

/-- The mesh of the voxel at the origin, in float32. -/
example (parseF : Bytes → F64) : ∃ (lib : GL F64) (ts : List (Tri (Vec F64))),
    StlText.stlToMesh f32 parseF (lib.stl (faceMesh64 [⟨0, 0, 0⟩])) = .ok ts ∧ ClosedAfterAxisCuts (exactTris ts) := by
  let lib : GL F64 := ⟨fun a => encode32 a.val, fun t => t.V1, faceMesh64⟩
  have hk : ∀ k ∈ ([⟨0, 0, 0⟩] : List Key), Marching.CellSmall k := by
    intro k hk
    rw [List.mem_singleton] at hk
    subst hk
    unfold Marching.CellSmall
    norm_num
  have hlen : (faceMesh64 [⟨0, 0, 0⟩]).length = 12 := by
    unfold faceMesh64
    rw [List.length_map]
    decide +kernel
  have hs : Below127 (faceMesh64 [⟨0, 0, 0⟩]) := by
    have key : ∀ t ∈ exactTris (faceMesh64 [⟨0, 0, 0⟩]), ∀ p ∈ [t.V1, t.V2, t.V3], |p.X| ≤ 1 ∧ |p.Y| ≤ 1 ∧ |p.Z| ≤ 1 := by
      rw [faceMesh64_exact hk]
      decide +kernel
    unfold Below127
    intro t ht p hp
    have := key _ (List.mem_map_of_mem ht) (exactVec p) (by
      rcases hp with rfl | rfl | rfl
      · exact .head _
      · exact .tail _ (.head _)
      · exact .tail _ (.tail _ (.head _)))
    have big : (1 : ℚ) < 2 ^ (127 : Int) := by norm_num
    exact ⟨this.1.trans_lt big, this.2.1.trans_lt big, this.2.2.trans_lt big⟩
  obtain ⟨ts, h1, _, h3⟩ := stl_closed_f32 (lib := lib) (fun _ => rfl) (parseF := parseF) (tris := faceMesh64 [⟨0, 0, 0⟩])
    (by rw [stl_length, hlen]; norm_num) hs (faceMesh64_mesher hk).2
  exact ⟨lib, ts, h1, h3⟩

end Cmd
end StlDice
