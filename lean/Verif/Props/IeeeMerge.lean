import Verif.Props.IeeeMesh
import Verif.Props.MergeFloat

/-! # C115: merging in all of float64 -/

namespace StlDice
open Spec GoFloat BinVOX IeeeL F64

variable {F : Type} {R : ℚ} {vs : VShell F64} {ws : VShell Ieee} {b : BinVOX F64} {c : BinVOX Ieee} {sch : AddSched}

/-- What is needed of a shell to compute with its resolution. -/
structure Calm (vs : VShell F64) : Prop where
  scale : 0 < vs.Scale.val
  dim0 : 0 < vs.Dim
  dim1 : vs.Dim ≤ 2 ^ 53
  lo : (2 : ℚ) ^ (-201 : Int) ≤ vs.VoxelsPerMM.val
  hi : vs.VoxelsPerMM.val ≤ 2 ^ 51

theorem calm_scale (h : Calm vs) : 1 / vs.Scale.val ≤ 2 ^ 52 ∧ vs.Scale.val ≤ 2 ^ 255 := by
  have hv := vpmm_f64 vs h.scale (abs_le.mpr ⟨by have := h.dim0; omega, h.dim1⟩)
  have d1 : (1 : ℚ) ≤ vs.Dim := by exact_mod_cast h.dim0
  have d2 : (vs.Dim : ℚ) ≤ 2 ^ 53 := by exact_mod_cast h.dim1
  constructor
  · have h2 : (vs.Dim : ℚ) / vs.Scale.val ≤ 2 ^ 52 := by
      by_contra hc
      have := rnd_mono (le_of_lt (not_le.mp hc))
      rw [← hv, rnd_of_mem (⟨1, 52, by norm_num, by norm_num, by norm_num⟩ : Binary64 ((2 : ℚ) ^ 52))] at this
      have := this.trans h.hi
      norm_num at this
    refine le_trans ?_ h2
    exact div_le_div_of_nonneg_right d1 h.scale.le
  · have h1 := h.lo
    rw [hv] at h1
    have h2 := of_rnd_ge (by norm_num) h1
    rw [le_div_iff₀ h.scale] at h2
    have e : (2 : ℚ) ^ (-201 - 1 : Int) = 1 / 2 ^ 202 := by
      rw [show (-201 - 1 : Int) = -(202 : Nat) from rfl, zpow_neg, zpow_natCast, one_div]
    rw [e, one_div, inv_mul_le_iff₀ (by positivity)] at h2
    calc vs.Scale.val ≤ 2 ^ 202 * vs.Dim := h2
      _ ≤ 2 ^ 202 * 2 ^ 53 := mul_le_mul_of_nonneg_left d2 (by positivity)
      _ = 2 ^ 255 := by rw [← pow_add]

theorem calm_congr {v w : VShell F64} (h : Calm v) (x : w.NX = v.NX) (y : w.NY = v.NY) (z : w.NZ = v.NZ) (s : w.Scale = v.Scale) :
    Calm w := by
  have d : w.Dim = v.Dim := by unfold VShell.Dim; rw [x, y, z]
  have r : w.VoxelsPerMM = v.VoxelsPerMM := by unfold VShell.VoxelsPerMM; rw [x, y, z, s]
  exact ⟨by rw [s]; exact h.scale, by rw [d]; exact h.dim0, by rw [d]; exact h.dim1, by rw [r]; exact h.lo, by rw [r]; exact h.hi⟩

theorem vpmm_calm {nx ny nz : Int} {s : F64} {s' : Ieee} (hs : Is s s') (s0 : 0 < s.val) (hs1 : 1 / s.val ≤ 2 ^ 52)
    (hd : |dimOf nx ny nz| ≤ 2 ^ 53) : IsP 106 (vpmmOf nx ny nz s) (vpmmOf nx ny nz s') := by
  unfold vpmmOf
  rw [le_is hs isP_zero.1]
  have h0 : (GoFloat.le s (ofInt 0) : Bool) = false := by
    show decide (s.val ≤ (ofInt 0 : F64).val) = false
    rw [decide_eq_false_iff_not]
    have : (ofInt 0 : F64).val = 0 := rfl
    rw [this]
    exact not_le.mpr s0
  rw [if_neg (by rw [h0]; simp), if_neg (by rw [h0]; simp)]
  have hdq : |((dimOf nx ny nz : Int) : ℚ)| ≤ 2 ^ 53 := by exact_mod_cast hd
  refine Is.div (c := 105) (isP_ofInt hdq (by norm_num)).1 hs s0.ne' ?_ (by norm_num)
  rw [Marching.ofInt_val hd, abs_div, abs_of_pos s0, div_eq_mul_one_div]
  calc |((dimOf nx ny nz : Int) : ℚ)| * (1 / s.val) ≤ 2 ^ 53 * 2 ^ 52 := mul_le_mul hdq hs1 (by positivity) (by positivity)
    _ = 2 ^ 105 := by norm_num

theorem shell_vpmm (hv : SameShell vs ws) (h : Calm vs) : IsP 106 vs.VoxelsPerMM ws.VoxelsPerMM := by
  unfold VShell.VoxelsPerMM
  rw [hv.nx, hv.ny, hv.nz]
  exact vpmm_calm hv.scale h.scale (calm_scale h).1 (abs_le.mpr ⟨by have := h.dim0; unfold VShell.Dim at this; omega, h.dim1⟩)

theorem grown_is (hv : SameShell vs ws) (h : Calm vs) (ks : List Key) (hD : (grown vs ks).Dim ≤ 2 ^ 53) :
    SameShell (grown vs ks) (grown ws ks) := by
  have gle := dim_grown_le vs ks
  have d0 := h.dim0
  obtain ⟨s1, s2⟩ := calm_scale h
  have hb := shell_vpmm hv h
  let w : VShell F64 := { vs with NX := cover vs.NX (ks.map Key.X), NY := cover vs.NY (ks.map Key.Y), NZ := cover vs.NZ (ks.map Key.Z) }
  let w' : VShell Ieee := { ws with NX := cover ws.NX (ks.map Key.X), NY := cover ws.NY (ks.map Key.Y), NZ := cover ws.NZ (ks.map Key.Z) }
  have hw : SameShell w w' := ⟨by show cover _ _ = cover _ _; rw [hv.nx], by show cover _ _ = cover _ _; rw [hv.ny],
    by show cover _ _ = cover _ _; rw [hv.nz], hv.tx, hv.ty, hv.tz, hv.scale, hv.voxels⟩
  have hwD : (grown vs ks).Dim = w.Dim := by
    obtain ⟨e1, e2, e3, -⟩ := adjustScale_dims w vs.VoxelsPerMM
    show dimOf (w.adjustScale vs.VoxelsPerMM).NX (w.adjustScale vs.VoxelsPerMM).NY (w.adjustScale vs.VoxelsPerMM).NZ = _
    rw [e1, e2, e3]
    rfl
  have ha : IsP 106 w.VoxelsPerMM w'.VoxelsPerMM := by
    unfold VShell.VoxelsPerMM
    rw [hw.nx, hw.ny, hw.nz]
    refine vpmm_calm hv.scale h.scale s1 (abs_le.mpr ⟨?_, ?_⟩)
    · have : 0 < w.Dim := by omega
      unfold VShell.Dim at this
      omega
    · show w.Dim ≤ _
      omega
  show SameShell (w.adjustScale vs.VoxelsPerMM) (w'.adjustScale ws.VoxelsPerMM)
  unfold VShell.adjustScale
  dsimp only
  rw [eq_is hb.1 ha.1]
  split
  · have v0 : 0 < vs.VoxelsPerMM.val := lt_of_lt_of_le (by positivity) h.lo
    have hq : IsP 308 (GoFloat.div w.VoxelsPerMM vs.VoxelsPerMM) (GoFloat.div w'.VoxelsPerMM ws.VoxelsPerMM) := by
      refine Is.div (c := 307) ha.1 hb.1 v0.ne' ?_ (by norm_num)
      have hi : 1 / vs.VoxelsPerMM.val ≤ 2 ^ 201 := by
        rw [div_le_iff₀ v0]
        have := h.lo
        rw [show (-201 : Int) = -(201 : Nat) from rfl, zpow_neg, zpow_natCast, inv_le_iff_one_le_mul₀ (by positivity)] at this
        linarith
      rw [abs_div, abs_of_pos v0, div_eq_mul_one_div]
      calc |w.VoxelsPerMM.val| * (1 / vs.VoxelsPerMM.val) ≤ 2 ^ 106 * 2 ^ 201 := mul_le_mul ha.2 hi (by positivity) (by positivity)
        _ = 2 ^ 307 := by rw [← pow_add]
    have hsP : IsP 255 vs.Scale ws.Scale := ⟨hv.scale, by rw [abs_of_pos h.scale]; exact s2⟩
    exact ⟨hw.nx, hw.ny, hw.nz, hv.tx, hv.ty, hv.tz, (hsP.mul hq (by norm_num)).1, hv.voxels⟩
  · exact hw

theorem moderate_calm (h : ModerateShell R vs) : Calm vs where
  scale := h.scale
  dim0 := h.dim0
  dim1 := h.dim1
  lo := le_trans (zpow_le_zpow_right₀ (by norm_num) (by norm_num)) h.lo
  hi := h.hi.trans (by norm_num)

theorem part_vpmm (hb : IsModel b c) (h : ModeratePart R b) : IsP 202 b.VoxelsPerMM c.VoxelsPerMM := by
  have hl : 1 / 2 ^ 200 ≤ b.VoxelsPerMM.val := by
    refine le_trans ?_ h.lo
    rw [one_div, ← zpow_natCast, ← zpow_neg]
    exact zpow_le_zpow_right₀ (by norm_num) (by norm_num)
  have d0 := h.dim0
  have h := vpmm_is hb.scale hl (h.hi.trans (pow_le_pow_right₀ (by norm_num) (by norm_num)))
    (abs_le.mpr ⟨by unfold BinVOX.Dim at d0; omega, h.dim1.trans (by norm_num)⟩)
  unfold BinVOX.VoxelsPerMM at *
  rw [hb.nx, hb.ny, hb.nz]
  exact h

theorem offset_is {v x t : F64} {v' x' t' : Ieee} (hR : R ≤ 2 ^ 200) (hv : IsP 106 v v') (hx : Is x x') (ht : Is t t') (v0 : 0 ≤ v.val)
    (hvR : v.val * R ≤ 2 ^ 50) (hxR : |x.val| ≤ R) (htR : |t.val| ≤ R) :
    (toInt (mul (sub x' t') v') : Int) = toInt (mul (sub x t) v) := by
  have hs : IsP 202 (sub x t) (sub x' t') :=
    IsP.sub 200 ⟨hx, hxR.trans hR⟩ ⟨ht, htR.trans hR⟩ le_rfl le_rfl (by norm_num)
  have hm := hs.mul hv (by norm_num)
  refine toInt_is (a := 54) ⟨hm.1, ?_⟩ (by norm_num)
  show |rnd (rnd (x.val - t.val) * v.val)| ≤ _
  have a1 := rnd_le_double (rnd (x.val - t.val) * v.val)
  have a2 := rnd_le_double (x.val - t.val)
  have a3 := abs_sub x.val t.val
  rw [abs_mul, abs_of_nonneg v0] at a1
  have a4 : |rnd (x.val - t.val)| * v.val ≤ (4 * R) * v.val := mul_le_mul_of_nonneg_right (by linarith) v0
  have a5 : (4 * R) * v.val = 4 * (v.val * R) := by ring
  rw [a5] at a4
  calc _ ≤ 2 * (|rnd (x.val - t.val)| * v.val) := a1
    _ ≤ 2 * (4 * (2 ^ 50)) := by linarith
    _ ≤ 2 ^ 54 := by norm_num

theorem displacement_is (hv : SameShell vs ws) (hb : IsModel b c) (h : ModerateShell R vs) (hp : ModeratePart R b) :
    displacement ws c = displacement vs b := by
  have hm := shell_vpmm hv (moderate_calm h)
  have v0 : 0 ≤ vs.VoxelsPerMM.val := le_trans (by positivity) h.lo
  unfold displacement
  rw [offset_is h.reach hm hb.tx hv.tx v0 h.grid hp.corner.1 h.corner.1, offset_is h.reach hm hb.ty hv.ty v0 h.grid hp.corner.2.1 h.corner.2.1,
    offset_is h.reach hm hb.tz hv.tz v0 h.grid hp.corner.2.2 h.corner.2.2]

theorem min_is {x t : F64} {x' t' : Ieee} (hx : Is x x') (ht : Is t t') : Is (minT x t) (minT x' t') := by
  unfold minT
  rw [lt_is hx ht]
  split
  · exact hx
  · exact ht

theorem updated_of_not [GoFloat F] (vs : VShell F) (b : BinVOX F) (hn : ¬ NonNeg (displacement vs b)) :
    updated vs b = grown
      { vs with
        TX := minT b.TX vs.TX, TY := minT b.TY vs.TY, TZ := minT b.TZ vs.TZ
        Voxels := vs.Voxels.map (fun v => v.moveBack (displacement vs b).X (displacement vs b).Y (displacement vs b).Z) }
      ((vs.Voxels.map (fun v => v.moveBack (displacement vs b).X (displacement vs b).Y (displacement vs b).Z)).map VShVoxel.key) := by
  unfold updated
  rw [if_neg hn]

theorem updated_of [GoFloat F] (vs : VShell F) (b : BinVOX F) (hn : NonNeg (displacement vs b)) :
    updated vs b = { vs with TX := minT b.TX vs.TX, TY := minT b.TY vs.TY, TZ := minT b.TZ vs.TZ } := by
  unfold updated
  rw [if_pos hn]

theorem updated_is (hv : SameShell vs ws) (hb : IsModel b c) (h : ModerateShell R vs) (hp : ModeratePart R b)
    (hD : (updated vs b).Dim ≤ 2 ^ 53) : SameShell (updated vs b) (updated ws c) := by
  have hd := displacement_is hv hb h hp
  by_cases hn : NonNeg (displacement vs b)
  · rw [updated_of vs b hn, updated_of ws c (by rw [hd]; exact hn)]
    exact ⟨hv.nx, hv.ny, hv.nz, min_is hb.tx hv.tx, min_is hb.ty hv.ty, min_is hb.tz hv.tz, hv.scale, hv.voxels⟩
  · rw [updated_of_not vs b hn] at hD ⊢
    rw [updated_of_not ws c (by rw [hd]; exact hn), hd, hv.voxels]
    generalize vs.Voxels.map (fun v => v.moveBack (displacement vs b).X (displacement vs b).Y (displacement vs b).Z) = moved at *
    have hc : Calm { vs with TX := minT b.TX vs.TX, TY := minT b.TY vs.TY, TZ := minT b.TZ vs.TZ, Voxels := moved } :=
      calm_congr (moderate_calm h) rfl rfl rfl rfl
    have hs : SameShell { vs with TX := minT b.TX vs.TX, TY := minT b.TY vs.TY, TZ := minT b.TZ vs.TZ, Voxels := moved }
        { ws with TX := minT c.TX ws.TX, TY := minT c.TY ws.TY, TZ := minT c.TZ ws.TZ, Voxels := moved } :=
      ⟨hv.nx, hv.ny, hv.nz, min_is hb.tx hv.tx, min_is hb.ty hv.ty, min_is hb.tz hv.tz, hv.scale, rfl⟩
    exact grown_is hs hc _ hD

theorem updated_calm (h : ModerateShell R vs) (hD : (updated vs b).Dim ≤ 2 ^ 53) : Calm (updated vs b) := by
  have v0 : 0 < vs.VoxelsPerMM.val := lt_of_lt_of_le (by positivity) h.lo
  have hm : Moderate vs.VoxelsPerMM.val := by
    refine ⟨le_trans (zpow_le_zpow_right₀ (by norm_num) (by norm_num)) h.lo, h.hi.trans ?_⟩
    rw [← zpow_natCast]
    exact zpow_le_zpow_right₀ (by norm_num) (by norm_num)
  obtain ⟨a, s0, d0⟩ := updated_f64 vs b h.scale h.dim0 hm hD
  obtain ⟨a1, a2⟩ := abs_le.mp a
  have hlo := h.lo
  have hhi := h.hi
  have e : (2 : ℚ) ^ (-200 : Int) = 2 ^ (-201 : Int) * 2 := by
    rw [show (-200 : Int) = -201 + 1 by norm_num, zpow_add_one₀ (by norm_num)]
  have hs : vs.VoxelsPerMM.val * (5 / 2 ^ 53) ≤ vs.VoxelsPerMM.val / 2 := by
    have : (5 : ℚ) / 2 ^ 53 ≤ 1 / 2 := by norm_num
    have := mul_le_mul_of_nonneg_left this v0.le
    linarith
  refine ⟨s0, d0, hD, ?_, ?_⟩
  · rw [e] at hlo
    linarith
  · have : (2 : ℚ) ^ 51 = 2 ^ 50 * 2 := by norm_num
    rw [this]
    linarith

/-- **C115.** For shells and models of moderate size `Add` does the same in full float64: it fails in both, or it makes the same
    shell. -/
theorem add_ieee (hv : SameShell vs ws) (hb : IsModel b c) (h : ModerateShell R vs) (hp : ModeratePart R b)
    (hD : ∀ vs', vs.Add sch b = some vs' → vs'.Dim ≤ 2 ^ 53) :
    (vs.Add sch b = none ∧ ws.Add sch c = none) ∨
    ∃ vs' ws', vs.Add sch b = some vs' ∧ ws.Add sch c = some ws' ∧ SameShell vs' ws' := by
  by_cases hne : vs.Voxels = []
  · have hne' : ws.Voxels = [] := by rw [hv.voxels]; exact hne
    right
    refine ⟨_, _, Add_eq_nil _ _ _ hne, Add_eq_nil _ _ _ hne', ?_⟩
    have hD := hD _ (Add_eq_nil sch vs b hne)
    have hg := grown_is hv (moderate_calm h) (movedKeys sch ⟨0, 0, 0⟩) hD
    exact ⟨hg.nx, hg.ny, hg.nz, hg.tx, hg.ty, hg.tz, hg.scale, rfl⟩
  · have hne' : ws.Voxels ≠ [] := by rw [hv.voxels]; exact hne
    have t1 : (toInt ws.VoxelsPerMM : Int) = toInt vs.VoxelsPerMM :=
      toInt_is (a := 50) ⟨(shell_vpmm hv (moderate_calm h)).1, by
        rw [abs_of_nonneg (le_trans (by positivity) h.lo)]; exact h.hi⟩ (by norm_num)
    have t2 : (toInt c.VoxelsPerMM : Int) = toInt b.VoxelsPerMM :=
      toInt_is (a := 50) ⟨(part_vpmm hb hp).1, by
        rw [abs_of_nonneg (le_trans (by positivity) hp.lo)]; exact hp.hi.trans (by norm_num)⟩ (by norm_num)
    have e1 := Add_eq sch vs b hne
    have e2 := Add_eq sch ws c hne'
    rw [t1, t2] at e2
    by_cases hcut : toInt vs.VoxelsPerMM ≠ (toInt b.VoxelsPerMM : Int)
    · rw [if_pos hcut] at e1 e2
      exact .inl ⟨e1, e2⟩
    · rw [if_neg hcut] at e1 e2
      right
      refine ⟨_, _, e1, e2, ?_⟩
      have hD := hD _ e1
      have hD1 : (updated vs b).Dim ≤ 2 ^ 53 := le_trans (dim_grown_le _ _) hD
      have hu := updated_is hv hb h hp hD1
      rw [displacement_is hv hb h hp]
      have hg := grown_is hu (updated_calm h hD1) (movedKeys sch (newMove (displacement vs b))) hD
      exact ⟨hg.nx, hg.ny, hg.nz, hg.tx, hg.ty, hg.tz, hg.scale, by rw [hu.voxels]⟩

/-! ## Merging -/

/-- The corner after `Add` is the smaller one. -/
theorem add_corner {vs vs' : VShell F64} (he : vs.Add sch b = some vs') (h : |vs.TX.val| ≤ R ∧ |vs.TY.val| ≤ R ∧ |vs.TZ.val| ≤ R)
    (hb : |b.TX.val| ≤ R ∧ |b.TY.val| ≤ R ∧ |b.TZ.val| ≤ R) : |vs'.TX.val| ≤ R ∧ |vs'.TY.val| ≤ R ∧ |vs'.TZ.val| ≤ R := by
  have hg : ∀ (v : VShell F64) ks, (grown v ks).TX = v.TX ∧ (grown v ks).TY = v.TY ∧ (grown v ks).TZ = v.TZ := by
    intro v ks
    unfold grown VShell.adjustScale
    dsimp only
    split <;> exact ⟨rfl, rfl, rfl⟩
  have hm : ∀ x t : F64, |x.val| ≤ R → |t.val| ≤ R → |(minT x t).val| ≤ R := by
    intro x t h1 h2
    unfold minT
    split <;> assumption
  have hm3 := And.intro (hm _ _ hb.1 h.1) (And.intro (hm _ _ hb.2.1 h.2.1) (hm _ _ hb.2.2 h.2.2))
  by_cases hne : vs.Voxels = []
  · rw [Add_eq_nil _ _ _ hne] at he
    cases he
    obtain ⟨e1, e2, e3⟩ := hg vs (movedKeys sch ⟨0, 0, 0⟩)
    dsimp only
    rw [e1, e2, e3]
    exact h
  · rw [Add_eq _ _ _ hne] at he
    split at he
    · cases he
    · cases he
      obtain ⟨e1, e2, e3⟩ := hg (updated vs b) (movedKeys sch (newMove (displacement vs b)))
      dsimp only
      rw [e1, e2, e3]
      by_cases hn : NonNeg (displacement vs b)
      · rw [updated_of vs b hn]
        exact hm3
      · rw [updated_of_not vs b hn]
        generalize vs.Voxels.map (fun v => v.moveBack (displacement vs b).X (displacement vs b).Y (displacement vs b).Z) = moved
        obtain ⟨e1, e2, e3⟩ := hg { vs with TX := minT b.TX vs.TX, TY := minT b.TY vs.TY, TZ := minT b.TZ vs.TZ, Voxels := moved }
          (moved.map VShVoxel.key)
        rw [e1, e2, e3]
        exact hm3

/-- A shell whose resolution is near that of a moderate model. -/
theorem moderate_of_near (h0 : ModeratePart R b) {k : Nat} (hk : k ≤ 2 ^ 40) (hs : 0 < vs.Scale.val) (hd : 0 < vs.Dim) (hD : vs.Dim ≤ 2 ^ 53)
    (hv : |vs.VoxelsPerMM.val - b.VoxelsPerMM.val| ≤ k * (b.VoxelsPerMM.val / 2 ^ 48))
    (hc : |vs.TX.val| ≤ R ∧ |vs.TY.val| ≤ R ∧ |vs.TZ.val| ≤ R) : ModerateShell R vs := by
  have v0 : 0 < b.VoxelsPerMM.val := lt_of_lt_of_le (by positivity) h0.lo
  have R0 : 0 ≤ R := le_trans (abs_nonneg _) hc.1
  have hkq : (k : ℚ) ≤ 2 ^ 40 := by exact_mod_cast hk
  have hw : |vs.VoxelsPerMM.val - b.VoxelsPerMM.val| ≤ b.VoxelsPerMM.val / 2 := by
    refine hv.trans ?_
    have := mul_le_mul_of_nonneg_right hkq (by positivity : 0 ≤ b.VoxelsPerMM.val / 2 ^ 48)
    linarith
  obtain ⟨a1, a2⟩ := abs_le.mp hw
  have hlo := h0.lo
  have hhi := h0.hi
  have e : (2 : ℚ) ^ (-199 : Int) = 2 ^ (-200 : Int) * 2 := by
    rw [show (-199 : Int) = -200 + 1 by norm_num, zpow_add_one₀ (by norm_num)]
  refine ⟨h0.reach, hs, hd, hD, ?_, ?_, ?_, hc⟩
  · rw [e] at hlo
    linarith
  · rw [show (2 : ℚ) ^ 50 = 2 ^ 49 * 2 by norm_num]
    linarith
  · have := mul_le_mul_of_nonneg_right (by linarith : vs.VoxelsPerMM.val ≤ 2 * b.VoxelsPerMM.val) R0
    have h3 := h0.grid
    rw [show (2 : ℚ) ^ 50 = 2 ^ 49 * 2 by norm_num]
    linarith

theorem part398 (h0 : ModeratePart R b) : (2 : ℚ) ^ (-398 : Int) ≤ b.VoxelsPerMM.val ∧ b.VoxelsPerMM.val ≤ 2 ^ (398 : Int) :=
  ⟨le_trans (zpow_le_zpow_right₀ (by norm_num) (by norm_num)) h0.lo,
   h0.hi.trans (by rw [← zpow_natCast]; exact zpow_le_zpow_right₀ (by norm_num) (by norm_num))⟩

theorem merge_tail {b0 : BinVOX F64} (h0 : ModeratePart R b0) {fs : List (AddSched × Option (BinVOX F64))}
    {gs : List (AddSched × Option (BinVOX Ieee))} (hs : SameInputs fs gs) {k : Nat} (hk : k + fs.length ≤ 2 ^ 40)
    (hp : ∀ f ∈ fs, ∀ b, f.2 = some b → ModeratePart R b) {vs : VShell F64} {ws : VShell Ieee} (hv : SameShell vs ws)
    (hsc : 0 < vs.Scale.val) (hd : 0 < vs.Dim) (hr : |vs.VoxelsPerMM.val - b0.VoxelsPerMM.val| ≤ k * (b0.VoxelsPerMM.val / 2 ^ 48))
    (hc : |vs.TX.val| ≤ R ∧ |vs.TY.val| ≤ R ∧ |vs.TZ.val| ≤ R)
    (hD : ∀ i vs', (fs.take i).foldl VShell.mergeStep (some (some vs)) = some (some vs') → vs'.Dim ≤ 2 ^ 53) :
    SameMerge (fs.foldl VShell.mergeStep (some (some vs))) (gs.foldl VShell.mergeStep (some (some ws))) := by
  induction hs generalizing vs ws k with
  | nil => exact .inr (.inr ⟨vs, ws, rfl, rfl, hv⟩)
  | @cons f g fs gs hfg _ ih =>
    obtain ⟨sch, f2⟩ := f
    obtain ⟨sch', g2⟩ := g
    obtain ⟨e, hfg⟩ := hfg
    dsimp only at e hfg
    subst e
    rw [List.foldl_cons, List.foldl_cons]
    rcases hfg with ⟨rfl, rfl⟩ | ⟨b, c, rfl, rfl, hbc⟩
    · have e1 : VShell.mergeStep (some (some vs)) (sch', none) = none := rfl
      have e2 : VShell.mergeStep (some (some ws)) (sch', none) = none := rfl
      rw [e1, e2, merge_none, merge_none]
      exact .inl ⟨rfl, rfl⟩
    · have e1 : VShell.mergeStep (some (some vs)) (sch', some b) = (vs.Add sch' b).map some := rfl
      have e2 : VShell.mergeStep (some (some ws)) (sch', some c) = (ws.Add sch' c).map some := rfl
      rw [List.length_cons] at hk
      have hpb := hp _ List.mem_cons_self b rfl
      have hm := moderate_of_near h0 (by omega) hsc hd (hD 0 vs rfl) hr hc
      have hD1 : ∀ vs', vs.Add sch' b = some vs' → vs'.Dim ≤ 2 ^ 53 := fun vs' h => hD 1 vs' (by
        show VShell.mergeStep (some (some vs)) (sch', some b) = _
        rw [e1, h]
        rfl)
      rw [e1, e2]
      rcases add_ieee (sch := sch') hv hbc hm hpb hD1 with ⟨a1, a2⟩ | ⟨vs', ws', a1, a2, hv'⟩
      · rw [a1, a2, Option.map_none, Option.map_none, merge_none, merge_none]
        exact .inl ⟨rfl, rfl⟩
      · obtain ⟨x, y, z⟩ := drift_step (part398 h0).1 (part398 h0).2 (by omega) hsc hd hr a1 (hD1 _ a1)
        rw [a1, a2]
        exact ih (k := k + 1) (by omega) (fun f hf => hp f (List.mem_cons_of_mem _ hf)) hv' x y z (add_corner a1 hc hpb.corner)
          fun i v h => hD (i + 1) v (by
            rw [List.take_succ_cons, List.foldl_cons, e1, a1]
            exact h)

/-- **C115.** Making a shell of one model does the same in full float64. -/
theorem new_ieee (hb : IsModel b c) (hp : ModeratePart R b) (hD : ∀ vs, VShell.New sch b = some vs → vs.Dim ≤ 2 ^ 53) :
    ∃ vs ws, VShell.New sch b = some vs ∧ VShell.New sch c = some ws ∧ SameShell vs ws := by
  have hw : c.white.length = b.white.length := by rw [hb.white]
  have h0 : SameShell (⟨b.NX, b.NY, b.NZ, b.TX, b.TY, b.TZ, b.Scale, []⟩ : VShell F64)
      (⟨c.NX, c.NY, c.NZ, c.TX, c.TY, c.TZ, c.Scale, []⟩ : VShell Ieee) := ⟨hb.nx, hb.ny, hb.nz, hb.tx, hb.ty, hb.tz, hb.scale, rfl⟩
  unfold VShell.New at *
  dsimp only at *
  rw [hw]
  by_cases h : b.white.length > 0
  · rw [if_pos h] at hD ⊢
    rw [if_pos h]
    have hm : ModerateShell R (⟨b.NX, b.NY, b.NZ, b.TX, b.TY, b.TZ, b.Scale, []⟩ : VShell F64) :=
      moderate_of_near hp (k := 0) (by norm_num) hp.scale hp.dim0 hp.dim1
        (by
          show |b.VoxelsPerMM.val - b.VoxelsPerMM.val| ≤ _
          rw [sub_self, abs_zero]
          simp) hp.corner
    rcases add_ieee (sch := sch) h0 hb hm hp hD with ⟨a, -⟩ | h
    · rw [Add_eq_nil _ _ _ rfl] at a
      cases a
    · exact h
  · rw [if_neg h, if_neg h]
    exact ⟨_, _, rfl, rfl, h0⟩

theorem new_corner (h : VShell.New sch b = some vs) (hb : |b.TX.val| ≤ R ∧ |b.TY.val| ≤ R ∧ |b.TZ.val| ≤ R) :
    |vs.TX.val| ≤ R ∧ |vs.TY.val| ≤ R ∧ |vs.TZ.val| ≤ R := by
  unfold VShell.New at h
  dsimp only at h
  split at h
  · exact add_corner h hb hb
  · cases h
    exact hb

/-- **C115.** `Merge` does the same in full float64: up to `2^40` models of moderate size, no grid along the way above `2^53` voxels a
    side. It fails in both, gives no shell in both, or gives the same shell. -/
theorem merge_ieee {fs : List (AddSched × Option (BinVOX F64))} {gs : List (AddSched × Option (BinVOX Ieee))} (hs : SameInputs fs gs)
    (hn : fs.length ≤ 2 ^ 40) (hp : ∀ f ∈ fs, ∀ b, f.2 = some b → ModeratePart R b)
    (hD : ∀ i vs, VShell.Merge (fs.take i) = some (some vs) → vs.Dim ≤ 2 ^ 53) : SameMerge (VShell.Merge fs) (VShell.Merge gs) := by
  unfold VShell.Merge at *
  cases hs with
  | nil => exact .inr (.inl ⟨rfl, rfl⟩)
  | @cons f g fs gs hfg hs =>
    obtain ⟨sch, f2⟩ := f
    obtain ⟨sch', g2⟩ := g
    obtain ⟨e, hfg⟩ := hfg
    dsimp only at e hfg
    subst e
    rw [List.foldl_cons, List.foldl_cons]
    rcases hfg with ⟨rfl, rfl⟩ | ⟨b, c, rfl, rfl, hbc⟩
    · have e1 : VShell.mergeStep (some (none : Option (VShell F64))) (sch', none) = none := rfl
      have e2 : VShell.mergeStep (some (none : Option (VShell Ieee))) (sch', none) = none := rfl
      rw [e1, e2, merge_none, merge_none]
      exact .inl ⟨rfl, rfl⟩
    · have e1 : VShell.mergeStep (some none) (sch', some b) = (VShell.New sch' b).map some := rfl
      have e2 : VShell.mergeStep (some none) (sch', some c) = (VShell.New sch' c).map some := rfl
      rw [List.length_cons] at hn
      have hpb := hp _ List.mem_cons_self b rfl
      have hD1 : ∀ vs', VShell.New sch' b = some vs' → vs'.Dim ≤ 2 ^ 53 := fun vs' h => hD 1 vs' (by
        show VShell.mergeStep (some none) (sch', some b) = _
        rw [e1, h]
        rfl)
      obtain ⟨vs', ws', a1, a2, hv'⟩ := new_ieee (sch := sch') hbc hpb hD1
      obtain ⟨x, y, z⟩ := new_f64 a1 hpb.scale hpb.dim0 (part398 hpb).1 (part398 hpb).2 (hD1 _ a1)
      rw [e1, e2, a1, a2]
      exact merge_tail hpb hs (k := 1) (by omega) (fun f hf => hp f (List.mem_cons_of_mem _ hf)) hv' x y z (new_corner a1 hpb.corner)
        fun i v h => hD (i + 1) v (by
          rw [List.take_succ_cons, List.foldl_cons, e1, a1]
          exact h)

/-! ## Examples -/

/-- The models of `MergeFloat` in full float64. -/
def threeAtI (t : Int) : BinVOX Ieee := ⟨3, 1, 1, ofInt t, ofInt 0, ofInt 0, ofInt 2, some [(⟨2, 0, 0⟩, ())], none⟩

theorem threeAt_is {t : Int} (h : |t| ≤ 4) : IsModel (threeAt t) (threeAtI t) :=
  ⟨rfl, rfl, rfl, (isP_ofInt (n := 2) (by have : |(t : ℚ)| ≤ 4 := by exact_mod_cast h
                                          exact this.trans (by norm_num)) (by norm_num)).1,
   isP_zero.1, isP_zero.1, (isP_ofInt (n := 1) (by norm_num) (by norm_num)).1, rfl, rfl⟩

theorem threeAt_part {t : Int} (h : |t| ≤ 4) : ModeratePart 4 (threeAt t) := by
  have hv : (threeAt t).VoxelsPerMM.val = 3 / 2 := by
    have : (threeAt t).VoxelsPerMM = (threeAt 0).VoxelsPerMM := rfl
    rw [this]
    decide +kernel
  refine ⟨by norm_num, by show 0 < (ofInt 2 : F64).val; decide +kernel, by show (0 : Int) < 3; norm_num,
    by show (3 : Int) ≤ 2 ^ 53; norm_num, ?_, ?_, ?_, ?_, ?_, ?_⟩
  · rw [hv]
    exact le_trans (zpow_le_zpow_right₀ (by norm_num) (by norm_num : (-199 : Int) ≤ 0)) (by norm_num)
  · rw [hv]; norm_num
  · rw [hv]; norm_num
  · show |(ofInt t : F64).val| ≤ 4
    rw [Marching.ofInt_val (h.trans (by norm_num))]
    exact_mod_cast h
  · show |(ofInt 0 : F64).val| ≤ 4
    decide +kernel
  · show |(ofInt 0 : F64).val| ≤ 4
    decide +kernel

/-- The two models that merge in `MergeFloat` merge in full float64 too, into the same shell. -/
example : SameMerge (VShell.Merge [(oneSch ⟨2, 0, 0⟩ ⟨0, 0, 0⟩, some (threeAt 0)), (oneSch ⟨2, 0, 0⟩ ⟨6, 0, 0⟩, some (threeAt 4))])
    (VShell.Merge [(oneSch ⟨2, 0, 0⟩ ⟨0, 0, 0⟩, some (threeAtI 0)), (oneSch ⟨2, 0, 0⟩ ⟨6, 0, 0⟩, some (threeAtI 4))]) := by
  have e1 := new_one (sch := oneSch ⟨2, 0, 0⟩ ⟨0, 0, 0⟩) (bv := threeAt 0) rfl rfl (oneSch_valid ⟨0, 0, 0⟩ rfl rfl) (by decide +kernel)
  have e2 := add_second (sch := oneSch ⟨2, 0, 0⟩ ⟨6, 0, 0⟩) (bv := threeAt 4) (k := ⟨2, 0, 0⟩) (e := ⟨6, 0, 0⟩)
    (vs := { grown ⟨(threeAt 0).NX, (threeAt 0).NY, (threeAt 0).NZ, (threeAt 0).TX, (threeAt 0).TY, (threeAt 0).TZ, (threeAt 0).Scale, []⟩
      [⟨2, 0, 0⟩] with Voxels := [⟨2, 0, 0, 0⟩] })
    (by simp) rfl rfl (by decide +kernel) (by decide +kernel) (by decide +kernel) (oneSch_valid ⟨6, 0, 0⟩ rfl rfl) (by decide +kernel)
  have m2 := merge_two e1 e2
  have m1 : VShell.Merge [(oneSch ⟨2, 0, 0⟩ ⟨0, 0, 0⟩, some (threeAt 0))] = (VShell.New (oneSch ⟨2, 0, 0⟩ ⟨0, 0, 0⟩) (threeAt 0)).map some := rfl
  refine merge_ieee (R := 4) (.cons ⟨rfl, .inr ⟨_, _, rfl, rfl, threeAt_is (by decide)⟩⟩
    (.cons ⟨rfl, .inr ⟨_, _, rfl, rfl, threeAt_is (by decide)⟩⟩ .nil)) (by norm_num) ?_ ?_
  · intro f hf b hb
    rcases List.mem_cons.mp hf with rfl | hf
    · cases hb; exact threeAt_part (by decide)
    · rcases List.mem_singleton.mp hf with rfl
      cases hb; exact threeAt_part (by decide)
  · intro i vs h
    rcases i with _ | _ | n
    · cases h
    · rw [show List.take (0 + 1) [(oneSch ⟨2, 0, 0⟩ ⟨0, 0, 0⟩, some (threeAt 0)), (oneSch ⟨2, 0, 0⟩ ⟨6, 0, 0⟩, some (threeAt 4))] =
        [(oneSch ⟨2, 0, 0⟩ ⟨0, 0, 0⟩, some (threeAt 0))] from rfl, m1, e1] at h
      cases h
      decide +kernel
    · rw [show List.take (n + 1 + 1) [(oneSch ⟨2, 0, 0⟩ ⟨0, 0, 0⟩, some (threeAt 0)), (oneSch ⟨2, 0, 0⟩ ⟨6, 0, 0⟩, some (threeAt 4))] =
        [(oneSch ⟨2, 0, 0⟩ ⟨0, 0, 0⟩, some (threeAt 0)), (oneSch ⟨2, 0, 0⟩ ⟨6, 0, 0⟩, some (threeAt 4))] by simp, m2] at h
      cases h
      decide +kernel

end StlDice
