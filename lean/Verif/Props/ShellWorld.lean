import Verif.Props.Shell
import Mathlib.Tactic.Ring

/-! # C16, C18, C19: merging shells, positions in the world and resolution (exact arithmetic) -/

namespace StlDice
open Spec
variable {F : Type}

/-! ## C19 -/

theorem dimOf_le (nx ny nz : Int) : nx ≤ BinVOX.dimOf nx ny nz ∧ ny ≤ BinVOX.dimOf nx ny nz ∧
    nz ≤ BinVOX.dimOf nx ny nz := by
  unfold BinVOX.dimOf; dsimp only; split <;> split <;> omega

theorem dimOf_mono {a b c a' b' c' : Int} (h1 : a ≤ a') (h2 : b ≤ b') (h3 : c ≤ c') :
    BinVOX.dimOf a b c ≤ BinVOX.dimOf a' b' c' := by
  unfold BinVOX.dimOf; dsimp only
  split <;> split <;> split <;> split <;> omega

theorem vpmm_rat (vs : VShell ℚ) (hs : 0 < vs.Scale) : vs.VoxelsPerMM = (vs.Dim : ℚ) / vs.Scale := by
  unfold VShell.VoxelsPerMM BinVOX.vpmmOf VShell.Dim
  have h0 : GoFloat.le vs.Scale (GoFloat.ofInt 0 : ℚ) = false := by
    show decide (vs.Scale ≤ ((0 : Int) : ℚ)) = false
    rw [decide_eq_false_iff_not]
    push_cast
    exact not_le.mpr hs
  rw [h0]
  rfl

theorem grown_vpmm (vs : VShell ℚ) (ks : List Key) (hs : 0 < vs.Scale) (hd : 0 < vs.Dim) :
    (grown vs ks).VoxelsPerMM = vs.VoxelsPerMM ∧ 0 < (grown vs ks).Scale ∧ 0 < (grown vs ks).Dim := by
  unfold grown
  let w : VShell ℚ := { vs with NX := cover vs.NX (ks.map Key.X), NY := cover vs.NY (ks.map Key.Y), NZ := cover vs.NZ (ks.map Key.Z) }
  show (w.adjustScale vs.VoxelsPerMM).VoxelsPerMM = _ ∧ 0 < (w.adjustScale vs.VoxelsPerMM).Scale ∧
    0 < (w.adjustScale vs.VoxelsPerMM).Dim
  have hws : w.Scale = vs.Scale := rfl
  have hwd : vs.Dim ≤ w.Dim := by
    unfold VShell.Dim
    exact dimOf_mono (le_cover _ _).1 (le_cover _ _).1 (le_cover _ _).1
  have hw0 : 0 < w.Dim := lt_of_lt_of_le hd hwd
  have hv := vpmm_rat vs hs
  have hw := vpmm_rat w (by rw [hws]; exact hs)
  have hdQ : (0 : ℚ) < (vs.Dim : ℚ) := by exact_mod_cast hd
  have hwQ : (0 : ℚ) < (w.Dim : ℚ) := by exact_mod_cast hw0
  unfold VShell.adjustScale
  dsimp only
  by_cases he : GoFloat.eq vs.VoxelsPerMM w.VoxelsPerMM = true
  · rw [he]
    simp only [Bool.not_true, Bool.false_eq_true, if_false]
    have : vs.VoxelsPerMM = w.VoxelsPerMM := of_decide_eq_true he
    exact ⟨this.symm, by rw [hws]; exact hs, hw0⟩
  · have he : GoFloat.eq vs.VoxelsPerMM w.VoxelsPerMM = false := by simpa using he
    rw [he]
    simp only [Bool.not_false, if_true]
    have hsc : GoFloat.mul w.Scale (GoFloat.div w.VoxelsPerMM vs.VoxelsPerMM) =
        vs.Scale * ((w.Dim : ℚ) / (vs.Dim : ℚ)) := by
      show w.Scale * (w.VoxelsPerMM / vs.VoxelsPerMM) = _
      rw [hv, hw, hws]
      field_simp
    have hpos : 0 < vs.Scale * ((w.Dim : ℚ) / (vs.Dim : ℚ)) := by positivity
    rw [hsc]
    refine ⟨?_, hpos, hw0⟩
    rw [vpmm_rat _ hpos, hv]
    show (w.Dim : ℚ) / (vs.Scale * ((w.Dim : ℚ) / (vs.Dim : ℚ))) = _
    field_simp

theorem updated_vpmm (vs : VShell ℚ) (bv : BinVOX ℚ) (hs : 0 < vs.Scale) (hd : 0 < vs.Dim) :
    (updated vs bv).VoxelsPerMM = vs.VoxelsPerMM ∧ 0 < (updated vs bv).Scale ∧ 0 < (updated vs bv).Dim := by
  unfold updated
  dsimp only
  split
  · exact ⟨rfl, hs, hd⟩
  · exact grown_vpmm _ _ hs hd

/-- **C19.** `Add` keeps the number of voxels per millimetre, however much the dimensions grow, for every
    schedule (exact arithmetic). -/
theorem add_keeps_resolution (sch : AddSched) (vs vs' : VShell ℚ) (bv : BinVOX ℚ) (hs : 0 < vs.Scale)
    (hd : 0 < vs.Dim) (he : vs.Add sch bv = some vs') :
    vs'.VoxelsPerMM = vs.VoxelsPerMM ∧ 0 < vs'.Scale ∧ 0 < vs'.Dim := by
  by_cases hne : vs.Voxels = []
  · rw [Add_eq_nil _ _ _ hne] at he
    cases he
    exact grown_vpmm _ _ hs hd
  · rw [Add_eq _ _ _ hne] at he
    split at he
    · cases he
    · cases he
      obtain ⟨h1, h2, h3⟩ := updated_vpmm vs bv hs hd
      obtain ⟨g1, g2, g3⟩ := grown_vpmm (updated vs bv) (movedKeys sch (newMove (displacement vs bv))) h2 h3
      exact ⟨g1.trans h1, g2, g3⟩

/-- Every voxel index is below the dimension. -/
def Fits (vs : VShell F) : Prop := ∀ v ∈ vs.Voxels, v.X < vs.NX ∧ v.Y < vs.NY ∧ v.Z < vs.NZ

theorem grown_dims [GoFloat F] (vs : VShell F) (ks : List Key) :
    (grown vs ks).NX = cover vs.NX (ks.map Key.X) ∧ (grown vs ks).NY = cover vs.NY (ks.map Key.Y) ∧
    (grown vs ks).NZ = cover vs.NZ (ks.map Key.Z) := by
  unfold grown
  obtain ⟨h1, h2, h3, _⟩ := adjustScale_dims
    ({ vs with NX := cover vs.NX (ks.map Key.X), NY := cover vs.NY (ks.map Key.Y), NZ := cover vs.NZ (ks.map Key.Z) } : VShell F)
    vs.VoxelsPerMM
  exact ⟨h1, h2, h3⟩

theorem grown_covers [GoFloat F] (vs : VShell F) (ks : List Key) :
    (vs.NX ≤ (grown vs ks).NX ∧ vs.NY ≤ (grown vs ks).NY ∧ vs.NZ ≤ (grown vs ks).NZ) ∧
    ∀ k ∈ ks, k.X < (grown vs ks).NX ∧ k.Y < (grown vs ks).NY ∧ k.Z < (grown vs ks).NZ := by
  obtain ⟨h1, h2, h3⟩ := grown_dims vs ks
  rw [h1, h2, h3]
  refine ⟨⟨(le_cover _ _).1, (le_cover _ _).1, (le_cover _ _).1⟩, fun k hk => ?_⟩
  exact ⟨(le_cover _ _).2 _ (List.mem_map_of_mem hk), (le_cover _ _).2 _ (List.mem_map_of_mem hk),
    (le_cover _ _).2 _ (List.mem_map_of_mem hk)⟩

theorem updated_fits [GoFloat F] (vs : VShell F) (bv : BinVOX F) (hf : Fits vs) :
    Fits (updated vs bv) ∧ vs.NX ≤ (updated vs bv).NX ∧ vs.NY ≤ (updated vs bv).NY ∧
      vs.NZ ≤ (updated vs bv).NZ := by
  unfold updated
  dsimp only
  split
  · exact ⟨hf, le_refl _, le_refl _, le_refl _⟩
  · obtain ⟨h1, h2⟩ := grown_covers ({ ({ vs with TX := minT bv.TX vs.TX, TY := minT bv.TY vs.TY, TZ := minT bv.TZ vs.TZ } : VShell F) with Voxels := vs.Voxels.map (fun v => v.moveBack (displacement vs bv).X (displacement vs bv).Y (displacement vs bv).Z) } : VShell F)
      ((vs.Voxels.map (fun v => v.moveBack (displacement vs bv).X (displacement vs bv).Y (displacement vs bv).Z)).map VShVoxel.key)
    refine ⟨?_, h1⟩
    intro v hv
    rw [grown_voxels] at hv
    exact h2 v.key (List.mem_map_of_mem hv)

/-- **C19.** After `Add` every shell voxel and every added voxel index is below the corresponding
    dimension, and no dimension has shrunk (law-free: also for IEEE arithmetic, any schedule). -/
theorem add_dims_cover [GoFloat F] (sch : AddSched) (vs vs' : VShell F) (bv : BinVOX F) (hf : Fits vs)
    (hne : vs.Voxels ≠ [])
    (hv : sch.Valid bv (newMove (displacement vs bv)).X (newMove (displacement vs bv)).Y
      (newMove (displacement vs bv)).Z)
    (he : vs.Add sch bv = some vs') :
    Fits vs' ∧ (∀ k, Moved (Occ bv) (newMove (displacement vs bv)) k → k.X < vs'.NX ∧ k.Y < vs'.NY ∧ k.Z < vs'.NZ) ∧
      vs.NX ≤ vs'.NX ∧ vs.NY ≤ vs'.NY ∧ vs.NZ ≤ vs'.NZ := by
  rw [Add_eq _ _ _ hne] at he
  split at he
  · cases he
  · cases he
    obtain ⟨g1, g2, g3, g4⟩ := updated_fits vs bv hf
    obtain ⟨⟨c1, c2, c3⟩, c4⟩ := grown_covers (updated vs bv) (movedKeys sch (newMove (displacement vs bv)))
    have hnew : ∀ k, Moved (Occ bv) (newMove (displacement vs bv)) k →
        k.X < (grown (updated vs bv) (movedKeys sch (newMove (displacement vs bv)))).NX ∧
        k.Y < (grown (updated vs bv) (movedKeys sch (newMove (displacement vs bv)))).NY ∧
        k.Z < (grown (updated vs bv) (movedKeys sch (newMove (displacement vs bv)))).NZ :=
      fun k hk => c4 k ((mem_movedKeys hv k).mpr hk)
    refine ⟨?_, hnew, le_trans g2 c1, le_trans g3 c2, le_trans g4 c3⟩
    intro v hvm
    dsimp only at hvm
    obtain ⟨l, hl, hs⟩ := addVoxels_keys sch.cap (lookupOf sch (newMove (displacement vs bv))) sch.ordLookup
      (updated vs bv).Voxels
    have hk := hs.subset (List.mem_map_of_mem hvm)
    rcases List.mem_append.mp hk with h | h
    · obtain ⟨w, hw, e⟩ := List.mem_map.mp h
      have := g1 w hw
      have ex : v.X = w.X := congrArg Key.X e.symm
      have ey : v.Y = w.Y := congrArg Key.Y e.symm
      have ez : v.Z = w.Z := congrArg Key.Z e.symm
      rw [ex, ey, ez]
      exact ⟨lt_of_lt_of_le this.1 c1, lt_of_lt_of_le this.2.1 c2, lt_of_lt_of_le this.2.2 c3⟩
    · exact hnew v.key ((mem_ordLookup hv _).mp (hl.subset h))

theorem grown_least [GoFloat F] (vs : VShell F) (ks : List Key) (N : Key) (h0 : vs.NX ≤ N.X ∧ vs.NY ≤ N.Y ∧ vs.NZ ≤ N.Z)
    (hk : ∀ k ∈ ks, k.X < N.X ∧ k.Y < N.Y ∧ k.Z < N.Z) :
    (grown vs ks).NX ≤ N.X ∧ (grown vs ks).NY ≤ N.Y ∧ (grown vs ks).NZ ≤ N.Z := by
  obtain ⟨h1, h2, h3⟩ := grown_dims vs ks
  rw [h1, h2, h3]
  refine ⟨cover_le _ _ _ h0.1 ?_, cover_le _ _ _ h0.2.1 ?_, cover_le _ _ _ h0.2.2 ?_⟩
  · intro c hc
    obtain ⟨k, hkm, rfl⟩ := List.mem_map.mp hc
    exact (hk k hkm).1
  · intro c hc
    obtain ⟨k, hkm, rfl⟩ := List.mem_map.mp hc
    exact (hk k hkm).2.1
  · intro c hc
    obtain ⟨k, hkm, rfl⟩ := List.mem_map.mp hc
    exact (hk k hkm).2.2

/-- **C19.** `Add` enlarges the dimensions no more than the voxels need: any box that holds the old dimensions, the
    old voxels in their new place and the added voxels, holds the new dimensions (law-free). -/
theorem add_dims_least [GoFloat F] (sch : AddSched) (vs vs' : VShell F) (bv : BinVOX F) (hne : vs.Voxels ≠ [])
    (hv : sch.Valid bv (newMove (displacement vs bv)).X (newMove (displacement vs bv)).Y
      (newMove (displacement vs bv)).Z)
    (he : vs.Add sch bv = some vs') (N : Key) (h0 : vs.NX ≤ N.X ∧ vs.NY ≤ N.Y ∧ vs.NZ ≤ N.Z)
    (hold : ∀ v ∈ vs.Voxels, v.X + (oldMove (displacement vs bv)).X < N.X ∧ v.Y + (oldMove (displacement vs bv)).Y < N.Y ∧
      v.Z + (oldMove (displacement vs bv)).Z < N.Z)
    (hnew : ∀ k, Moved (Occ bv) (newMove (displacement vs bv)) k → k.X < N.X ∧ k.Y < N.Y ∧ k.Z < N.Z) :
    vs'.NX ≤ N.X ∧ vs'.NY ≤ N.Y ∧ vs'.NZ ≤ N.Z := by
  rw [Add_eq _ _ _ hne] at he
  split at he
  · cases he
  · cases he
    refine grown_least _ _ N ?_ (fun k hk => hnew k ((mem_movedKeys hv k).mp hk))
    unfold updated
    dsimp only
    split
    · exact h0
    · rename_i hn
      refine grown_least _ _ N h0 ?_
      intro k hk
      obtain ⟨w, hw, rfl⟩ := List.mem_map.mp hk
      obtain ⟨v, hvm, rfl⟩ := List.mem_map.mp hw
      have := hold v hvm
      have e : oldMove (displacement vs bv) = ⟨-(displacement vs bv).X, -(displacement vs bv).Y, -(displacement vs bv).Z⟩ := if_neg hn
      rw [e] at this
      unfold VShVoxel.moveBack VShVoxel.key
      dsimp only at this ⊢
      omega

/-- **C19.** The same for `Add` to an empty shell (in particular `New`). -/
theorem add_dims_cover_first [GoFloat F] (sch : AddSched) (vs vs' : VShell F) (bv : BinVOX F) (hne : vs.Voxels = [])
    (hv : sch.Valid bv 0 0 0) (he : vs.Add sch bv = some vs') :
    Fits vs' ∧ (∀ k, Occ bv k → k.X < vs'.NX ∧ k.Y < vs'.NY ∧ k.Z < vs'.NZ) ∧
      vs.NX ≤ vs'.NX ∧ vs.NY ≤ vs'.NY ∧ vs.NZ ≤ vs'.NZ := by
  have hv' : sch.Valid bv (⟨0, 0, 0⟩ : Key).X (⟨0, 0, 0⟩ : Key).Y (⟨0, 0, 0⟩ : Key).Z := hv
  rw [Add_eq_nil _ _ _ hne] at he
  cases he
  obtain ⟨⟨c1, c2, c3⟩, c4⟩ := grown_covers vs (movedKeys sch ⟨0, 0, 0⟩)
  have hz : ∀ k, Moved (Occ bv) ⟨0, 0, 0⟩ k ↔ Occ bv k := by
    intro k
    rw [moved_zero]
  have hnew : ∀ k, Occ bv k →
      k.X < (grown vs (movedKeys sch ⟨0, 0, 0⟩)).NX ∧
      k.Y < (grown vs (movedKeys sch ⟨0, 0, 0⟩)).NY ∧
      k.Z < (grown vs (movedKeys sch ⟨0, 0, 0⟩)).NZ :=
    fun k hk => c4 k ((mem_movedKeys hv' k).mpr ((hz k).mpr hk))
  refine ⟨?_, hnew, c1, c2, c3⟩
  intro v hvm
  dsimp only at hvm
  obtain ⟨l, hl, hs⟩ := addVoxels_keys sch.cap (lookupOf sch ⟨0, 0, 0⟩) sch.ordLookup []
  have hk := hs.subset (List.mem_map_of_mem hvm)
  rw [List.map_nil, List.nil_append] at hk
  exact hnew v.key ((hz _).mp ((mem_ordLookup hv' _).mp (hl.subset hk)))

/-! ## C18 -/

/-- **C18.** Old and new voxels keep their relative position: the difference of the two moves is the
    displacement (law-free). -/
theorem add_relative_position (d : Key) :
    (newMove d).X - (oldMove d).X = d.X ∧ (newMove d).Y - (oldMove d).Y = d.Y ∧
    (newMove d).Z - (oldMove d).Z = d.Z := by
  unfold newMove oldMove
  split <;> simp

theorem toInt_int (i : Int) : GoFloat.toInt ((i : ℚ)) = i := by
  show (if (0 : ℚ) ≤ (i : ℚ) then ⌊(i : ℚ)⌋ else ⌈(i : ℚ)⌉) = i
  split <;> simp

theorem displacement_lattice (vs : VShell ℚ) (bv : BinVOX ℚ) (e : Key)
    (hx : (bv.TX - vs.TX) * vs.VoxelsPerMM = e.X) (hy : (bv.TY - vs.TY) * vs.VoxelsPerMM = e.Y)
    (hz : (bv.TZ - vs.TZ) * vs.VoxelsPerMM = e.Z) : displacement vs bv = e := by
  unfold displacement
  have h1 : GoFloat.mul (GoFloat.sub bv.TX vs.TX) vs.VoxelsPerMM = (e.X : ℚ) := hx
  have h2 : GoFloat.mul (GoFloat.sub bv.TY vs.TY) vs.VoxelsPerMM = (e.Y : ℚ) := hy
  have h3 : GoFloat.mul (GoFloat.sub bv.TZ vs.TZ) vs.VoxelsPerMM = (e.Z : ℚ) := hz
  rw [h1, h2, h3, toInt_int, toInt_int, toInt_int]

theorem add_T (sch : AddSched) (vs vs' : VShell ℚ) (bv : BinVOX ℚ) (hne : vs.Voxels ≠ [])
    (he : vs.Add sch bv = some vs') :
    vs'.TX = min bv.TX vs.TX ∧ vs'.TY = min bv.TY vs.TY ∧ vs'.TZ = min bv.TZ vs.TZ := by
  have hmin : ∀ a b : ℚ, minT a b = min a b := by
    intro a b
    unfold minT
    have : GoFloat.lt a b = decide (a < b) := rfl
    rw [this]
    by_cases h : a < b
    · simp [h, le_of_lt h]
    · simp [h, not_lt.mp h]
  have hu : (updated vs bv).TX = min bv.TX vs.TX ∧ (updated vs bv).TY = min bv.TY vs.TY ∧
      (updated vs bv).TZ = min bv.TZ vs.TZ := by
    unfold updated
    dsimp only
    split
    · simp [hmin]
    · unfold grown
      have := adjustScale_dims (F := ℚ)
      simp only [(this _ _).2.2.2.1, (this _ _).2.2.2.2.1, (this _ _).2.2.2.2.2, hmin, and_self]
  rw [Add_eq _ _ _ hne] at he
  split at he
  · cases he
  · cases he
    rw [← hu.1, ← hu.2.1, ← hu.2.2]
    unfold grown
    have := adjustScale_dims (F := ℚ)
    simp only [(this _ _).2.2.2.1, (this _ _).2.2.2.2.1, (this _ _).2.2.2.2.2, and_self]

/-- One axis of C18: translation `t` of the shell, `b` of the model, `v` voxels per mm, `e` the
    displacement on this axis, `nn` whether no displacement is negative. -/
theorem world_axis (t b v : ℚ) (hv : 0 < v) (e : Int) (he : (b - t) * v = e) (nn : Prop) [Decidable nn]
    (hnn : nn → 0 ≤ e) (x : Int) :
    ((min b t + ((x + (if nn then 0 else -e) : Int) : ℚ) / v = t + (x : ℚ) / v) ↔ ¬ (0 < e ∧ ¬ nn)) ∧
    ((min b t + ((x + (if nn then e else 0) : Int) : ℚ) / v = b + (x : ℚ) / v) ↔ ¬ (0 < e ∧ ¬ nn)) := by
  have hb : b = t + (e : ℚ) / v := by field_simp; linarith
  have hev : 0 < e → t < b := by
    intro h
    have : (0 : ℚ) < (e : ℚ) / v := by
      have : (0 : ℚ) < (e : ℚ) := by exact_mod_cast h
      positivity
    linarith
  have hev' : e ≤ 0 → b ≤ t := by
    intro h
    have : (e : ℚ) / v ≤ 0 := by
      have : (e : ℚ) ≤ 0 := by exact_mod_cast h
      exact div_nonpos_of_nonpos_of_nonneg this (le_of_lt hv)
    linarith
  have hev'' : 0 ≤ e → t ≤ b := by
    intro h
    have : (0 : ℚ) ≤ (e : ℚ) / v := by
      have : (0 : ℚ) ≤ (e : ℚ) := by exact_mod_cast h
      positivity
    linarith
  by_cases hn : nn
  · have hm : min b t = t := min_eq_right (hev'' (hnn hn))
    simp only [hn, if_true, not_true, and_false, not_false_iff, iff_true, hm]
    constructor
    · push_cast; ring
    · rw [hb]; push_cast; ring
  · simp only [hn, if_false, not_false_iff, and_true]
    by_cases hp : 0 < e
    · have hm : min b t = t := min_eq_right (le_of_lt (hev hp))
      have hne : (e : ℚ) / v ≠ 0 := by
        have : (0 : ℚ) < (e : ℚ) := by exact_mod_cast hp
        positivity
      simp only [hp, not_true, iff_false, hm]
      constructor
      · intro h
        apply hne
        have : ((x + -e : Int) : ℚ) / v = (x : ℚ) / v - (e : ℚ) / v := by push_cast; ring
        rw [this] at h
        linarith
      · intro h
        apply hne
        have : ((x + 0 : Int) : ℚ) / v = (x : ℚ) / v := by push_cast; ring
        rw [this] at h
        linarith
    · have hm : min b t = b := min_eq_left (hev' (not_lt.mp hp))
      simp only [hp, not_false_iff, iff_true, hm]
      constructor
      · rw [hb]; push_cast; ring
      · push_cast; ring

/-- **C18.** When the translations differ by whole voxels, the world coordinate of every old voxel
    (moved by `oldMove`) and every new voxel (moved by `newMove`) after `Add` is what it was, on the x
    axis, iff not (the model lies at larger x but at smaller y or z).  Same for y and z. -/
theorem add_world_position (sch : AddSched) (vs vs' : VShell ℚ) (bv : BinVOX ℚ) (hs : 0 < vs.Scale)
    (hd : 0 < vs.Dim) (hne : vs.Voxels ≠ []) (he : vs.Add sch bv = some vs') (e : Key)
    (hx : (bv.TX - vs.TX) * vs.VoxelsPerMM = e.X) (hy : (bv.TY - vs.TY) * vs.VoxelsPerMM = e.Y)
    (hz : (bv.TZ - vs.TZ) * vs.VoxelsPerMM = e.Z) (n : Int) :
    displacement vs bv = e ∧
    ((vs'.TX + ((n + (oldMove e).X : Int) : ℚ) / vs'.VoxelsPerMM = vs.TX + (n : ℚ) / vs.VoxelsPerMM) ↔
      ¬ (0 < e.X ∧ ¬ NonNeg e)) ∧
    ((vs'.TX + ((n + (newMove e).X : Int) : ℚ) / vs'.VoxelsPerMM = bv.TX + (n : ℚ) / vs.VoxelsPerMM) ↔
      ¬ (0 < e.X ∧ ¬ NonNeg e)) ∧
    ((vs'.TY + ((n + (oldMove e).Y : Int) : ℚ) / vs'.VoxelsPerMM = vs.TY + (n : ℚ) / vs.VoxelsPerMM) ↔
      ¬ (0 < e.Y ∧ ¬ NonNeg e)) ∧
    ((vs'.TY + ((n + (newMove e).Y : Int) : ℚ) / vs'.VoxelsPerMM = bv.TY + (n : ℚ) / vs.VoxelsPerMM) ↔
      ¬ (0 < e.Y ∧ ¬ NonNeg e)) ∧
    ((vs'.TZ + ((n + (oldMove e).Z : Int) : ℚ) / vs'.VoxelsPerMM = vs.TZ + (n : ℚ) / vs.VoxelsPerMM) ↔
      ¬ (0 < e.Z ∧ ¬ NonNeg e)) ∧
    ((vs'.TZ + ((n + (newMove e).Z : Int) : ℚ) / vs'.VoxelsPerMM = bv.TZ + (n : ℚ) / vs.VoxelsPerMM) ↔
      ¬ (0 < e.Z ∧ ¬ NonNeg e)) := by
  obtain ⟨h1, h2, h3⟩ := add_T sch vs vs' bv hne he
  have hv := (add_keeps_resolution sch vs vs' bv hs hd he).1
  have hvp : 0 < vs.VoxelsPerMM := by
    rw [vpmm_rat vs hs]
    have : (0 : ℚ) < (vs.Dim : ℚ) := by exact_mod_cast hd
    positivity
  have eo : oldMove e = ⟨if NonNeg e then 0 else -e.X, if NonNeg e then 0 else -e.Y,
      if NonNeg e then 0 else -e.Z⟩ := by unfold oldMove; split <;> rfl
  have en : newMove e = ⟨if NonNeg e then e.X else 0, if NonNeg e then e.Y else 0,
      if NonNeg e then e.Z else 0⟩ := by unfold newMove; split <;> rfl
  rw [h1, h2, h3, hv, eo, en]
  dsimp only
  have ax := world_axis vs.TX bv.TX _ hvp e.X hx (NonNeg e) (fun h => h.1) n
  have ay := world_axis vs.TY bv.TY _ hvp e.Y hy (NonNeg e) (fun h => h.2.1) n
  have az := world_axis vs.TZ bv.TZ _ hvp e.Z hz (NonNeg e) (fun h => h.2.2) n
  exact ⟨displacement_lattice vs bv e hx hy hz, ax.1, ax.2, ay.1, ay.2, az.1, az.2⟩

/-- **C18.** Relative positions, of any shell (exact or not), whatever the arithmetic, map orders and capacities: after `Add`
    the listed positions are old listed positions, all moved by one offset `m`, and positions of voxels of the model, all moved
    by one offset `n`, where `n - m` is the displacement. -/
theorem add_positions [GoFloat F] (sch : AddSched) (vs vs' : VShell F) (bv : BinVOX F) (hne : vs.Voxels ≠ [])
    (hv : sch.Valid bv (newMove (displacement vs bv)).X (newMove (displacement vs bv)).Y (newMove (displacement vs bv)).Z)
    (he : vs.Add sch bv = some vs') :
    ∃ m n : Key, n.X - m.X = (displacement vs bv).X ∧ n.Y - m.Y = (displacement vs bv).Y ∧ n.Z - m.Z = (displacement vs bv).Z ∧
      m = oldMove (displacement vs bv) ∧ n = newMove (displacement vs bv) ∧
      ∀ v ∈ vs'.Voxels, (∃ u ∈ vs.Voxels, v.key = ⟨u.X + m.X, u.Y + m.Y, u.Z + m.Z⟩) ∨
        ∃ k, Occ bv k ∧ v.key = ⟨k.X + n.X, k.Y + n.Y, k.Z + n.Z⟩ := by
  obtain ⟨e1, e2, e3⟩ := add_relative_position (displacement vs bv)
  refine ⟨_, _, e1, e2, e3, rfl, rfl, ?_⟩
  rw [Add_eq _ _ _ hne] at he
  split at he
  · cases he
  · cases he
    dsimp only
    obtain ⟨l, hl, hs⟩ := addVoxels_keys sch.cap (lookupOf sch (newMove (displacement vs bv))) sch.ordLookup
      (updated vs bv).Voxels
    intro v hmem
    have := hs.subset (List.mem_map_of_mem hmem)
    rw [List.mem_append] at this
    rcases this with h | h
    · left
      rw [updated_voxels, List.map_map, List.mem_map] at h
      obtain ⟨u, hu, h⟩ := h
      refine ⟨u, hu, ?_⟩
      rw [← h]
      simp [VShVoxel.key, VShVoxel.moveBack]
    · right
      have := (mem_ordLookup hv _).mp (hl.subset h)
      exact ⟨_, this, by simp⟩

namespace Spec
/-- The corner of voxel `k` of a grid with origin `(tx, ty, tz)` and `v` voxels per millimetre. -/
def worldAt (tx ty tz v : ℚ) (k : Key) : ℚ × ℚ × ℚ := (tx + k.X / v, ty + k.Y / v, tz + k.Z / v)
end Spec

/-- **C18.** Absolute positions: if the origins differ by whole voxels and the model's origin is on no axis above and on another
    below that of the shell, every voxel listed after `Add` is, in the world, at the place of a voxel that the shell listed
    before or of a voxel of the model. -/
theorem add_world (sch : AddSched) (vs vs' : VShell ℚ) (bv : BinVOX ℚ) (hs : 0 < vs.Scale)
    (hd : 0 < vs.Dim) (hne : vs.Voxels ≠ [])
    (e : Key) (hx : (bv.TX - vs.TX) * vs.VoxelsPerMM = e.X) (hy : (bv.TY - vs.TY) * vs.VoxelsPerMM = e.Y)
    (hz : (bv.TZ - vs.TZ) * vs.VoxelsPerMM = e.Z)
    (hv : sch.Valid bv (newMove e).X (newMove e).Y (newMove e).Z) (he : vs.Add sch bv = some vs')
    (hm : (0 ≤ e.X ∧ 0 ≤ e.Y ∧ 0 ≤ e.Z) ∨ (e.X ≤ 0 ∧ e.Y ≤ 0 ∧ e.Z ≤ 0)) :
    ∀ v ∈ vs'.Voxels,
      (∃ u ∈ vs.Voxels, worldAt vs'.TX vs'.TY vs'.TZ vs'.VoxelsPerMM v.key = worldAt vs.TX vs.TY vs.TZ vs.VoxelsPerMM u.key) ∨
      ∃ k, Occ bv k ∧ worldAt vs'.TX vs'.TY vs'.TZ vs'.VoxelsPerMM v.key = worldAt bv.TX bv.TY bv.TZ vs.VoxelsPerMM k := by
  have hdis := displacement_lattice vs bv e hx hy hz
  have hnx : ¬ (0 < e.X ∧ ¬ NonNeg e) := by unfold NonNeg; omega
  have hny : ¬ (0 < e.Y ∧ ¬ NonNeg e) := by unfold NonNeg; omega
  have hnz : ¬ (0 < e.Z ∧ ¬ NonNeg e) := by unfold NonNeg; omega
  obtain ⟨m, n, -, -, -, rfl, rfl, h⟩ := add_positions sch vs vs' bv hne (by rw [hdis]; exact hv) he
  rw [hdis] at h
  intro v hvm
  rcases h v hvm with ⟨u, hu, ek⟩ | ⟨k, hk, ek⟩
  · left
    refine ⟨u, hu, ?_⟩
    rw [ek]
    unfold worldAt VShVoxel.key
    dsimp only
    rw [(add_world_position sch vs vs' bv hs hd hne he e hx hy hz u.X).2.1.mpr hnx,
      (add_world_position sch vs vs' bv hs hd hne he e hx hy hz u.Y).2.2.2.1.mpr hny,
      (add_world_position sch vs vs' bv hs hd hne he e hx hy hz u.Z).2.2.2.2.2.1.mpr hnz]
  · right
    refine ⟨k, hk, ?_⟩
    rw [ek]
    unfold worldAt
    dsimp only
    rw [(add_world_position sch vs vs' bv hs hd hne he e hx hy hz k.X).2.2.1.mpr hnx,
      (add_world_position sch vs vs' bv hs hd hne he e hx hy hz k.Y).2.2.2.2.1.mpr hny,
      (add_world_position sch vs vs' bv hs hd hne he e hx hy hz k.Z).2.2.2.2.2.2.mpr hnz]

/-! ## C16: whole histories -/

namespace Spec
/-- Componentwise order on keys. -/
def KLe (a b : Key) : Prop := a.X ≤ b.X ∧ a.Y ≤ b.Y ∧ a.Z ≤ b.Z

instance (a b : Key) : Decidable (KLe a b) := by unfold KLe; infer_instance

/-- A file to merge: the runtime's choices, the model, and its lattice origin in the world. -/
structure MFile where
  sch : AddSched
  bv : BinVOX ℚ
  t : Key

/-- The model's origin is the lattice point `t` of the lattice with origin `(bx,by,bz)` and pitch `1/v`. -/
def OnLattice (bx by' bz v : ℚ) (f : MFile) : Prop :=
  f.bv.TX = bx + (f.t.X : ℚ) / v ∧ f.bv.TY = by' + (f.t.Y : ℚ) / v ∧ f.bv.TZ = bz + (f.t.Z : ℚ) / v

/-- The voxels of the file in the world. -/
def MFile.world (f : MFile) : Key → Prop := Moved (Occ f.bv) f.t

/-- The files can be merged one after the other, starting from a shell with lattice origin `m` made of
    the world voxels `W`, at most `n` voxels so far: same resolution, on the lattice, disjoint, the
    origin not mixed with respect to the current one, and the slice has room. -/
def Mergeable (bx by' bz v : ℚ) : Key → (Key → Prop) → Nat → List MFile → Prop
  | _, _, _, [] => True
  | m, W, n, f :: fs =>
    OnLattice bx by' bz v f ∧ f.bv.VoxelsPerMM = v ∧ (KLe m f.t ∨ KLe f.t m) ∧
    (∀ k, f.world k → ¬ W k) ∧
    f.sch.Valid f.bv (newMove ⟨f.t.X - m.X, f.t.Y - m.Y, f.t.Z - m.Z⟩).X
      (newMove ⟨f.t.X - m.X, f.t.Y - m.Y, f.t.Z - m.Z⟩).Y (newMove ⟨f.t.X - m.X, f.t.Y - m.Y, f.t.Z - m.Z⟩).Z ∧
    n + f.sch.ordLookup.length ≤ f.sch.cap ∧
    Mergeable bx by' bz v (if KLe m f.t then m else f.t) (KUnion W f.world) (n + f.sch.ordLookup.length) fs

end Spec

/-- Invariant of the merge: the shell's origin is the lattice point `m` and it is the shell of `W`. -/
structure WorldInv (bx by' bz v : ℚ) (m : Key) (W : Key → Prop) (n : Nat) (vs : VShell ℚ) : Prop where
  tx : vs.TX = bx + (m.X : ℚ) / v
  ty : vs.TY = by' + (m.Y : ℚ) / v
  tz : vs.TZ = bz + (m.Z : ℚ) / v
  vpmm : vs.VoxelsPerMM = v
  scale : 0 < vs.Scale
  dim : 0 < vs.Dim
  shell : IsShell (Moved W ⟨-m.X, -m.Y, -m.Z⟩) vs.Voxels
  len : vs.Voxels.length ≤ n
  fits : Fits vs
  fin : ∃ l : List Key, ∀ k, W k → k ∈ l
  ne : ∃ k, W k

theorem moved_moved (S : Key → Prop) (a b : Key) :
    Moved (Moved S a) b = Moved S ⟨a.X + b.X, a.Y + b.Y, a.Z + b.Z⟩ := by
  funext k
  unfold Moved
  have e : (⟨k.X - b.X - a.X, k.Y - b.Y - a.Y, k.Z - b.Z - a.Z⟩ : Key) =
      ⟨k.X - (a.X + b.X), k.Y - (a.Y + b.Y), k.Z - (a.Z + b.Z)⟩ := by
    simp only [Key.mk.injEq]; omega
  simp only [e]

theorem WorldInv.voxels_ne {bx by' bz v : ℚ} {m : Key} {W : Key → Prop} {n : Nat} {vs : VShell ℚ}
    (h : WorldInv bx by' bz v m W n vs) : vs.Voxels ≠ [] := by
  obtain ⟨l, hl⟩ := h.fin
  obtain ⟨k, hk⟩ := h.ne
  refine isShell_ne_nil h.shell (l.map (fun k => ⟨k.X - m.X, k.Y - m.Y, k.Z - m.Z⟩)) ?_
    (k := ⟨k.X - m.X, k.Y - m.Y, k.Z - m.Z⟩) ?_
  · intro j hj
    refine List.mem_map.mpr ⟨_, hl _ hj, ?_⟩
    obtain ⟨x, y, z⟩ := j
    simp
  · unfold Moved
    have e : (⟨k.X - m.X - -m.X, k.Y - m.Y - -m.Y, k.Z - m.Z - -m.Z⟩ : Key) = k := by
      obtain ⟨x, y, z⟩ := k
      simp
    simp only [e]; exact hk

theorem world_step {bx by' bz v : ℚ} (hv0 : 0 < v) {m : Key} {W : Key → Prop} {n : Nat} {vs : VShell ℚ}
    (h : WorldInv bx by' bz v m W n vs) (f : MFile)
    (hl : OnLattice bx by' bz v f) (hvp : f.bv.VoxelsPerMM = v) (hc : KLe m f.t ∨ KLe f.t m)
    (hdis : ∀ k, f.world k → ¬ W k)
    (hval : f.sch.Valid f.bv (newMove ⟨f.t.X - m.X, f.t.Y - m.Y, f.t.Z - m.Z⟩).X
      (newMove ⟨f.t.X - m.X, f.t.Y - m.Y, f.t.Z - m.Z⟩).Y (newMove ⟨f.t.X - m.X, f.t.Y - m.Y, f.t.Z - m.Z⟩).Z)
    (hcap : n + f.sch.ordLookup.length ≤ f.sch.cap) :
    ∃ vs', vs.Add f.sch f.bv = some vs' ∧
      WorldInv bx by' bz v (if KLe m f.t then m else f.t) (KUnion W f.world)
        (n + f.sch.ordLookup.length) vs' ∧
      ∀ N : Key, (vs.NX ≤ N.X ∧ vs.NY ≤ N.Y ∧ vs.NZ ≤ N.Z) →
        (∀ k, KUnion W f.world k → k.X - (if KLe m f.t then m else f.t).X < N.X ∧ k.Y - (if KLe m f.t then m else f.t).Y < N.Y ∧
          k.Z - (if KLe m f.t then m else f.t).Z < N.Z) → vs'.NX ≤ N.X ∧ vs'.NY ≤ N.Y ∧ vs'.NZ ≤ N.Z := by
  have hne := h.voxels_ne
  obtain ⟨l1, l2, l3⟩ := hl
  have hvne : v ≠ 0 := ne_of_gt hv0
  set e : Key := ⟨f.t.X - m.X, f.t.Y - m.Y, f.t.Z - m.Z⟩ with he
  have hd : displacement vs f.bv = e := by
    apply displacement_lattice
    · rw [h.tx, l1, h.vpmm]; simp only [he]; push_cast; field_simp; ring
    · rw [h.ty, l2, h.vpmm]; simp only [he]; push_cast; field_simp; ring
    · rw [h.tz, l3, h.vpmm]; simp only [he]; push_cast; field_simp; ring
  have hex : ∃ vs', vs.Add f.sch f.bv = some vs' := by
    rw [Add_eq _ _ _ hne, h.vpmm, hvp]
    simp only [ne_eq, not_true, if_false]
    exact ⟨_, rfl⟩
  obtain ⟨vs', hadd⟩ := hex
  refine ⟨vs', hadd, ?_⟩
  -- the two moves in the world
  have hnn : NonNeg e ↔ KLe m f.t := by
    unfold NonNeg KLe; simp only [he]; omega
  let m' : Key := if KLe m f.t then m else f.t
  have hm' : m' = if KLe m f.t then m else f.t := rfl
  have hold : Moved (Moved W ⟨-m.X, -m.Y, -m.Z⟩) (oldMove e) = Moved W ⟨-m'.X, -m'.Y, -m'.Z⟩ := by
    rw [moved_moved]
    congr 1
    by_cases hk : KLe m f.t
    · have e1 : oldMove e = ⟨0, 0, 0⟩ := if_pos (hnn.mpr hk)
      have e2 : m' = m := if_pos hk
      rw [e1, e2]; simp
    · have e1 : oldMove e = ⟨-e.X, -e.Y, -e.Z⟩ := if_neg (fun h => hk (hnn.mp h))
      have e2 : m' = f.t := if_neg hk
      rw [e1, e2, he]
      simp only [Key.mk.injEq]
      omega
  have hnew : Moved (Occ f.bv) (newMove e) = Moved f.world ⟨-m'.X, -m'.Y, -m'.Z⟩ := by
    unfold MFile.world
    rw [moved_moved]
    by_cases hk : KLe m f.t
    · have e1 : newMove e = e := if_pos (hnn.mpr hk)
      have e2 : m' = m := if_pos hk
      rw [e1, e2, he]; rfl
    · have e1 : newMove e = ⟨0, 0, 0⟩ := if_neg (fun h => hk (hnn.mp h))
      have e2 : m' = f.t := if_neg hk
      rw [e1, e2]; simp
  have hleast : ∀ N : Key, (vs.NX ≤ N.X ∧ vs.NY ≤ N.Y ∧ vs.NZ ≤ N.Z) →
      (∀ k, KUnion W f.world k → k.X - m'.X < N.X ∧ k.Y - m'.Y < N.Y ∧ k.Z - m'.Z < N.Z) →
      vs'.NX ≤ N.X ∧ vs'.NY ≤ N.Y ∧ vs'.NZ ≤ N.Z := by
    intro N h0 hN
    refine add_dims_least f.sch vs vs' f.bv hne (by rw [hd]; exact hval) hadd N h0 ?_ ?_
    · intro u hu
      have h1 : Moved (Moved W ⟨-m.X, -m.Y, -m.Z⟩) (oldMove e) (u.key.shift (oldMove e).X (oldMove e).Y (oldMove e).Z) := by
        have := ((h.shell.2 u).mp hu).1
        unfold Moved at this ⊢
        unfold Key.shift
        simpa using this
      rw [hold] at h1
      have := hN _ (Or.inl h1)
      unfold Key.shift VShVoxel.key at this
      rw [hd]
      dsimp only at this
      omega
    · intro k hk
      rw [hd, hnew] at hk
      have := hN _ (Or.inr hk)
      dsimp only at this
      omega
  have hsh := add_shell_exact f.sch vs vs' f.bv _ h.shell hne (by rw [hd]; exact hval)
    (by
      rw [hd, hold, hnew]
      intro k h1 h2
      exact hdis _ h1 h2)
    (le_trans (Nat.add_le_add_right h.len _) hcap) hadd
  rw [hd, hold, hnew] at hsh
  obtain ⟨t1, t2, t3⟩ := add_T f.sch vs vs' f.bv hne hadd
  obtain ⟨r1, r2, r3⟩ := add_keeps_resolution f.sch vs vs' f.bv h.scale h.dim hadd
  have hmin : ∀ (b : ℚ) (p q : Int), (p ≤ q → min (b + (q : ℚ) / v) (b + (p : ℚ) / v) = b + (p : ℚ) / v) ∧
      (q ≤ p → min (b + (q : ℚ) / v) (b + (p : ℚ) / v) = b + (q : ℚ) / v) := by
    intro b p q
    constructor
    · intro hpq
      apply min_eq_right
      have : (p : ℚ) ≤ (q : ℚ) := by exact_mod_cast hpq
      have := div_le_div_of_nonneg_right this (le_of_lt hv0)
      linarith
    · intro hpq
      apply min_eq_left
      have : (q : ℚ) ≤ (p : ℚ) := by exact_mod_cast hpq
      have := div_le_div_of_nonneg_right this (le_of_lt hv0)
      linarith
  have hT : ∀ (b : ℚ) (p q r : Int), ((KLe m f.t → p ≤ q) ∧ (KLe f.t m → q ≤ p)) →
      r = (if KLe m f.t then p else q) →
      min (b + (q : ℚ) / v) (b + (p : ℚ) / v) = b + (r : ℚ) / v := by
    intro b p q r hpq hr
    by_cases hk : KLe m f.t
    · rw [hr, if_pos hk]; exact (hmin b p q).1 (hpq.1 hk)
    · rw [hr, if_neg hk]
      exact (hmin b p q).2 (hpq.2 (hc.resolve_left hk))
  refine ⟨⟨?_, ?_, ?_, r1.trans h.vpmm, r2, r3, ?_, ?_,
    (add_dims_cover f.sch vs vs' f.bv h.fits hne (by rw [hd]; exact hval) hadd).1, ?_, ?_⟩, hleast⟩
  · rw [t1, l1, h.tx]
    exact hT _ _ _ _ ⟨fun hk => hk.1, fun hk => hk.1⟩ (by split <;> rfl)
  · rw [t2, l2, h.ty]
    exact hT _ _ _ _ ⟨fun hk => hk.2.1, fun hk => hk.2.1⟩ (by split <;> rfl)
  · rw [t3, l3, h.tz]
    exact hT _ _ _ _ ⟨fun hk => hk.2.2, fun hk => hk.2.2⟩ (by split <;> rfl)
  · refine (isShell_congr ?_ _).mp hsh
    intro k
    exact Iff.rfl
  · rw [Add_eq _ _ _ hne] at hadd
    split at hadd
    · cases hadd
    · cases hadd
      dsimp only
      obtain ⟨l, hl, hs⟩ := addVoxels_keys f.sch.cap (lookupOf f.sch (newMove (displacement vs f.bv)))
        f.sch.ordLookup (updated vs f.bv).Voxels
      have q1 := hs.length_le
      rw [List.length_append, List.length_map, List.length_map] at q1
      have q0 : (updated vs f.bv).Voxels.length = vs.Voxels.length := by
        rw [updated_voxels, List.length_map]
      have q2 := hl.length_le
      have q3 := h.len
      omega
  · obtain ⟨l, hl⟩ := h.fin
    refine ⟨l ++ (f.bv.white.keys ++ f.bv.color.keys).map (fun k => k.shift f.t.X f.t.Y f.t.Z), ?_⟩
    rintro k (hk | hk)
    · exact List.mem_append_left _ (hl k hk)
    · apply List.mem_append_right
      refine List.mem_map.mpr ⟨⟨k.X - f.t.X, k.Y - f.t.Y, k.Z - f.t.Z⟩, ?_, by simp [Key.shift]⟩
      rcases hk with hk | hk
      · exact List.mem_append_left _ ((GoMap.mem_keys_iff _ _).mpr hk)
      · exact List.mem_append_right _ ((GoMap.mem_keys_iff _ _).mpr hk)
  · obtain ⟨k, hk⟩ := h.ne
    exact ⟨k, Or.inl hk⟩

/-- **C16.** Merging models of one resolution whose origins lie on one lattice, pairwise disjoint in the
    world, each origin componentwise above or below the current one, with slices that need not grow:
    `Merge` succeeds and returns exactly the shell of the union, with exact neighbour maps, at its exact
    place in the world — for every map order and every number of files.  The shell's origin is below every
    file's and is one of theirs, its dimensions exceed all indices, and they are no larger than the first file's or than the indices require. -/
theorem merge_world_exact (bx by' bz v : ℚ) (hv0 : 0 < v) (f0 : MFile) (fs : List MFile)
    (hs : 0 < f0.bv.Scale) (hd : 0 < f0.bv.Dim) (hl : OnLattice bx by' bz v f0)
    (hvp : f0.bv.VoxelsPerMM = v) (hw : f0.bv.white ≠ []) (hval : f0.sch.Valid f0.bv 0 0 0)
    (hm : Mergeable bx by' bz v f0.t f0.world f0.sch.ordLookup.length fs) :
    ∃ (vs : VShell ℚ) (m : Key), VShell.Merge ((f0 :: fs).map (fun f => (f.sch, some f.bv))) = some (some vs) ∧
      vs.TX = bx + (m.X : ℚ) / v ∧ vs.TY = by' + (m.Y : ℚ) / v ∧ vs.TZ = bz + (m.Z : ℚ) / v ∧
      vs.VoxelsPerMM = v ∧ (∀ f ∈ f0 :: fs, KLe m f.t) ∧ (∃ f ∈ f0 :: fs, f.t = m) ∧ Fits vs ∧
      (∀ N : Key, (f0.bv.NX ≤ N.X ∧ f0.bv.NY ≤ N.Y ∧ f0.bv.NZ ≤ N.Z) →
        (∀ f ∈ f0 :: fs, ∀ k, f.world k → k.X - m.X < N.X ∧ k.Y - m.Y < N.Y ∧ k.Z - m.Z < N.Z) →
        vs.NX ≤ N.X ∧ vs.NY ≤ N.Y ∧ vs.NZ ≤ N.Z) ∧
      IsShell (fun k => ∃ f ∈ f0 :: fs, f.world ⟨k.X + m.X, k.Y + m.Y, k.Z + m.Z⟩) vs.Voxels := by
  -- the tail
  have htail : ∀ (fs : List MFile) (m : Key) (W : Key → Prop) (n : Nat) (vs : VShell ℚ),
      WorldInv bx by' bz v m W n vs → Mergeable bx by' bz v m W n fs →
      ∃ vs' m' W' n', (fs.map (fun f => (f.sch, some f.bv))).foldl VShell.mergeStep (some (some vs)) = some (some vs') ∧
        WorldInv bx by' bz v m' W' n' vs' ∧ (KLe m' m ∧ (∀ f ∈ fs, KLe m' f.t) ∧ (m' = m ∨ ∃ f ∈ fs, f.t = m')) ∧
        (∀ k, W' k ↔ W k ∨ ∃ f ∈ fs, f.world k) ∧
        ∀ N : Key, (vs.NX ≤ N.X ∧ vs.NY ≤ N.Y ∧ vs.NZ ≤ N.Z) →
          (∀ k, W' k → k.X - m'.X < N.X ∧ k.Y - m'.Y < N.Y ∧ k.Z - m'.Z < N.Z) → vs'.NX ≤ N.X ∧ vs'.NY ≤ N.Y ∧ vs'.NZ ≤ N.Z := by
    intro fs
    induction fs with
    | nil => intro m W n vs h _; exact ⟨vs, m, W, n, rfl, h, ⟨by unfold KLe; omega, by simp, Or.inl rfl⟩, by simp, fun _ h _ => h⟩
    | cons f fs ih =>
      intro m W n vs h hm
      obtain ⟨a1, a2, a3, a4, a5, a6, a7⟩ := hm
      obtain ⟨vs1, hadd, hinv, hlst⟩ := world_step hv0 h f a1 a2 a3 a4 a5 a6
      obtain ⟨vs', m', W', n', h1, h2, ⟨h4, h5, h7⟩, h3, h8⟩ := ih _ _ _ _ hinv a7
      have h6 : KLe m' m ∧ KLe m' f.t := by
        revert h4
        split
        · rename_i hk
          unfold KLe at *
          omega
        · rename_i hk
          have := a3.resolve_left hk
          unfold KLe at *
          omega
      refine ⟨vs', m', W', n', ?_, h2, ⟨h6.1, fun g hg => ?_, ?_⟩, ?_, ?_⟩
      · rw [List.map_cons, List.foldl_cons]
        have : VShell.mergeStep (some (some vs)) (f.sch, some f.bv) = some (some vs1) := by
          unfold VShell.mergeStep; simp [hadd]
        rw [this]
        exact h1
      · rcases List.mem_cons.mp hg with rfl | hg
        · exact h6.2
        · exact h5 g hg
      · rcases h7 with h7 | ⟨g, hg, h7⟩
        · by_cases hk : KLe m f.t
          · rw [if_pos hk] at h7; exact Or.inl h7
          · rw [if_neg hk] at h7; exact Or.inr ⟨f, by simp, h7.symm⟩
        · exact Or.inr ⟨g, List.mem_cons_of_mem _ hg, h7⟩
      · intro k
        rw [h3]
        unfold KUnion
        constructor
        · rintro ((h | h) | ⟨g, hg, h⟩)
          · exact Or.inl h
          · exact Or.inr ⟨f, by simp, h⟩
          · exact Or.inr ⟨g, List.mem_cons_of_mem _ hg, h⟩
        · rintro (h | ⟨g, hg, h⟩)
          · exact Or.inl (Or.inl h)
          · rcases List.mem_cons.mp hg with rfl | hg
            · exact Or.inl (Or.inr h)
            · exact Or.inr ⟨g, hg, h⟩
      · intro N hN hk
        refine h8 N (hlst N hN ?_) hk
        intro k hkk
        have := hk k ((h3 k).mpr (Or.inl hkk))
        obtain ⟨q1, q2, q3⟩ := h4
        exact ⟨by linarith, by linarith, by linarith⟩
  -- the first file
  obtain ⟨vs, hnew, hsh, t1, t2, t3⟩ := new_shell_exact f0.sch f0.bv hw hval
  have hadd := hnew
  unfold VShell.New at hadd
  have hlen : f0.bv.white.length > 0 := List.length_pos_iff.mpr hw
  dsimp only at hadd
  rw [if_pos hlen] at hadd
  obtain ⟨r1, r2, r3⟩ := add_keeps_resolution f0.sch _ vs f0.bv
    (by show 0 < f0.bv.Scale; exact hs) (by show 0 < f0.bv.Dim; exact hd) hadd
  have hinv : WorldInv bx by' bz v f0.t f0.world f0.sch.ordLookup.length vs := by
    obtain ⟨l1, l2, l3⟩ := hl
    refine ⟨t1.trans l1, t2.trans l2, t3.trans l3, ?_, r2, r3, ?_, ?_, (add_dims_cover_first _ _ _ _ rfl hval hadd).1, ?_, ?_⟩
    · rw [r1, ← hvp]; rfl
    · unfold MFile.world
      rw [moved_moved]
      have : (⟨f0.t.X + -f0.t.X, f0.t.Y + -f0.t.Y, f0.t.Z + -f0.t.Z⟩ : Key) = ⟨0, 0, 0⟩ := by
        simp only [Key.mk.injEq]; omega
      rw [this, moved_zero]
      exact hsh
    · rw [Add_eq_nil _ _ _ rfl] at hadd
      cases hadd
      dsimp only
      obtain ⟨l, hl, hs⟩ := addVoxels_keys f0.sch.cap (lookupOf f0.sch ⟨0, 0, 0⟩) f0.sch.ordLookup []
      have h1 := hs.length_le
      rw [List.length_map] at h1
      have h2 := hl.length_le
      simp only [List.map_nil, List.nil_append] at h1
      omega
    · refine ⟨(f0.bv.white.keys ++ f0.bv.color.keys).map (fun k => k.shift f0.t.X f0.t.Y f0.t.Z), ?_⟩
      intro k hk
      refine List.mem_map.mpr ⟨⟨k.X - f0.t.X, k.Y - f0.t.Y, k.Z - f0.t.Z⟩, ?_, by simp [Key.shift]⟩
      rcases hk with hk | hk
      · exact List.mem_append_left _ ((GoMap.mem_keys_iff _ _).mpr hk)
      · exact List.mem_append_right _ ((GoMap.mem_keys_iff _ _).mpr hk)
    · obtain ⟨p, hp⟩ := List.exists_mem_of_ne_nil _ hw
      refine ⟨p.1.shift f0.t.X f0.t.Y f0.t.Z, Or.inl ?_⟩
      have : p.1 ∈ f0.bv.white.keys := List.mem_map_of_mem hp
      have := (GoMap.mem_keys_iff _ _).mp this
      simpa [Key.shift] using this
  obtain ⟨vs', m', W', n', h1, h2, ⟨h4, h5, h6⟩, h3, h8⟩ := htail fs _ _ _ _ hinv hm
  refine ⟨vs', m', ?_, h2.tx, h2.ty, h2.tz, h2.vpmm, fun f hf => ?_, ?_, h2.fits, ?_, ?_⟩
  · unfold VShell.Merge
    rw [List.map_cons, List.foldl_cons]
    have : VShell.mergeStep (some none) (f0.sch, some f0.bv) = some (some vs) := by
      unfold VShell.mergeStep; simp [hnew]
    rw [this]
    exact h1
  · rcases List.mem_cons.mp hf with rfl | hf
    · exact h4
    · exact h5 f hf
  · rcases h6 with h6 | ⟨f, hf, h6⟩
    · exact ⟨f0, by simp, h6.symm⟩
    · exact ⟨f, List.mem_cons_of_mem _ hf, h6⟩
  · intro N hN hk
    refine h8 N ?_ ?_
    · rw [Add_eq_nil _ _ _ rfl] at hadd
      cases hadd
      refine grown_least _ _ N hN ?_
      intro k hkm
      have h0 : Moved (Occ f0.bv) ⟨0, 0, 0⟩ k := (mem_movedKeys (p := ⟨0, 0, 0⟩) hval k).mp hkm
      rw [moved_zero] at h0
      have := hk f0 (by simp) (k.shift f0.t.X f0.t.Y f0.t.Z) (by
        unfold MFile.world Moved Key.shift
        simpa using h0)
      unfold KLe at h4
      unfold Key.shift at this
      dsimp only at this
      omega
    · intro k hkk
      rcases (h3 k).mp hkk with h | ⟨f, hf, h⟩
      · exact hk f0 (by simp) k h
      · exact hk f (List.mem_cons_of_mem _ hf) k h
  · refine (isShell_congr ?_ _).mp h2.shell
    intro k
    unfold Moved
    have e : (⟨k.X - -m'.X, k.Y - -m'.Y, k.Z - -m'.Z⟩ : Key) = ⟨k.X + m'.X, k.Y + m'.Y, k.Z + m'.Z⟩ := by
      simp only [Key.mk.injEq]; omega
    simp only [e]
    rw [h3]
    constructor
    · rintro (h | ⟨f, hf, h⟩)
      · exact ⟨f0, by simp, h⟩
      · exact ⟨f, List.mem_cons_of_mem _ hf, h⟩
    · rintro ⟨f, hf, h⟩
      rcases List.mem_cons.mp hf with rfl | hf
      · exact Or.inl h
      · exact Or.inr ⟨f, hf, h⟩

/-- The hypotheses of `merge_world_exact` are met by two disjoint models on one lattice. -/
example : ∃ f0 f1 : MFile, Mergeable 0 0 0 1 f0.t f0.world f0.sch.ordLookup.length [f1] ∧
    f0.sch.Valid f0.bv 0 0 0 ∧ f0.bv.white ≠ [] := by
  refine ⟨⟨midSch, midBV, ⟨0, 0, 0⟩⟩, ⟨{ endsSch with cap := 3 }, endsBV, ⟨0, 0, 0⟩⟩, ?_, midSch_valid, by simp [midBV, BinVOX.white, mapOf]⟩
  refine ⟨⟨by simp [endsBV], by simp [endsBV], by simp [endsBV]⟩, by decide +kernel, Or.inl (by decide),
    ?_, ⟨endsSch_valid.white, endsSch_valid.color, endsSch_valid.nodup, endsSch_valid.lookup⟩, by decide, trivial⟩
  intro k h1 h2
  unfold MFile.world Moved Occ at h1 h2
  simp [midBV, endsBV, BinVOX.white, BinVOX.color, mapOf, ← GoMap.mem_keys_iff, GoMap.keys] at h1 h2
  omega

/-! ## More examples -/

/-- The outer voxels in a model that lies three voxels further along x. -/
def farBV : BinVOX ℚ := { endsBV with TX := 3 }
def farSch : AddSched := ⟨[⟨0, 0, 0⟩, ⟨2, 0, 0⟩], [], [⟨3, 0, 0⟩, ⟨5, 0, 0⟩], 3⟩
def farVS : VShell ℚ := ⟨6, 1, 1, 0, 0, 0, 6, [⟨1, 0, 0, 0⟩, ⟨3, 0, 0, 0⟩, ⟨5, 0, 0, 0⟩]⟩

theorem farVS_add : midVS.Add farSch farBV = some farVS := by decide +kernel
theorem far_displacement : displacement midVS farBV = ⟨3, 0, 0⟩ := by decide +kernel

theorem farSch_valid : farSch.Valid farBV 3 0 0 :=
  ⟨by decide, by decide, by decide, by
    intro k
    constructor
    · intro h
      have : k = ⟨3, 0, 0⟩ ∨ k = ⟨5, 0, 0⟩ := by simpa [farSch] using h
      rcases this with rfl | rfl
      · exact ⟨⟨0, 0, 0⟩, by decide, by rfl⟩
      · exact ⟨⟨2, 0, 0⟩, by decide, by rfl⟩
    · rintro ⟨j, hj, rfl⟩
      have : j = ⟨0, 0, 0⟩ ∨ j = ⟨2, 0, 0⟩ := by
        simpa [farBV, endsBV, BinVOX.white, BinVOX.color, mapOf, ← GoMap.mem_keys_iff, GoMap.keys] using hj
      rcases this with rfl | rfl <;> decide⟩

example := add_keeps_resolution farSch midVS farVS farBV (by decide) (by decide) farVS_add
example := add_dims_cover farSch midVS farVS farBV (by unfold Fits; decide) (by decide)
  (by rw [far_displacement]; exact farSch_valid) farVS_add
example := add_world_position farSch midVS farVS farBV (by decide) (by decide) (by decide) farVS_add ⟨3, 0, 0⟩
  (by decide +kernel) (by decide +kernel) (by decide +kernel) 2

example := add_positions farSch midVS farVS farBV (by decide) (by rw [far_displacement]; exact farSch_valid) farVS_add
example := add_world farSch midVS farVS farBV (by decide) (by decide) (by decide) ⟨3, 0, 0⟩
  (by decide +kernel) (by decide +kernel) (by decide +kernel) farSch_valid farVS_add (by decide)

end StlDice
