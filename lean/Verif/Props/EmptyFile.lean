import Verif.Props.CutDiceMerge
import Verif.Props.IeeeMerge
import Verif.Props.IeeeFmt

/-! # C124: an empty file among those that are merged -/

namespace StlDice
namespace Spec
open BinVOX

/-- A scale: a positive finite number. -/
def PositiveScale (s : Ieee) : Prop := ∃ a ok, s = .fin false a ok ∧ 0 < a

/-- What a reader finds in the file of a model without voxels: no dimensions, no voxels. -/
structure EmptyModel (e : BinVOX Ieee) : Prop where
  dims : e.NX = 0 ∧ e.NY = 0 ∧ e.NZ = 0
  white : e.white = []
  color : e.ColorVoxels = none
  scale : PositiveScale e.Scale

/-- At least one voxel per mm. -/
def Fine (v : Ieee) : Prop := GoFloat.le (GoFloat.ofInt 1) v = true

end Spec

open Spec BinVOX Ieee F64

theorem round_zero (z : Bool) : ∃ ok, Ieee.round z 0 = .fin z 0 ok := by
  have h : rnd |(0 : ℚ)| = 0 := by rw [abs_zero, rnd_zero]
  unfold Ieee.round
  rw [dif_pos (by rw [h]; positivity)]
  refine ⟨⟨le_refl _, by positivity, rnd_zero⟩, ?_⟩
  congr 1

theorem ofInt_zero : ∃ ok, (GoFloat.ofInt 0 : Ieee) = .fin false 0 ok := by
  have := round_zero false
  simpa [GoFloat.ofInt] using this

theorem positive_not_le {s : Ieee} (h : PositiveScale s) : GoFloat.le s (GoFloat.ofInt 0) = false := by
  obtain ⟨a, ok, rfl, h0⟩ := h
  obtain ⟨ok', e⟩ := ofInt_zero
  rw [e]
  show (Ieee.lt _ _ || Ieee.eq _ _) = false
  simp [Ieee.lt, Ieee.eq, signed]
  exact ⟨le_of_lt h0, ne_of_gt h0⟩

/-- A shell or model of dimension 0 has 0 voxels per mm. -/
theorem vpmm_empty {s : Ieee} (h : PositiveScale s) : ∃ ok, vpmmOf 0 0 0 s = .fin false 0 ok := by
  unfold vpmmOf
  rw [positive_not_le h]
  obtain ⟨a, ok, rfl, h0⟩ := h
  obtain ⟨ok', e⟩ := ofInt_zero
  have hd : dimOf 0 0 0 = 0 := rfl
  simp only [Bool.false_eq_true, if_false, hd]
  rw [e]
  show ∃ ok'', Ieee.div _ _ = _
  unfold Ieee.div
  dsimp only
  rw [if_neg (ne_of_gt h0)]
  have : signed false (0 : ℚ) / signed false a = 0 := by simp [signed]
  rw [this]
  exact round_zero _

theorem toInt_zero {s : Bool} {ok} : GoFloat.toInt (Ieee.fin s 0 ok) = 0 := by
  show Ieee.toInt _ = 0
  unfold Ieee.toInt
  have h0 : signed s (0 : ℚ) = 0 := by unfold signed; split <;> simp
  have : Rat.floor 0 = 0 := rfl
  dsimp only
  rw [h0]
  simp only [le_refl, if_true, this]
  rfl

theorem empty_vpmm {e : BinVOX Ieee} (h : EmptyModel e) : GoFloat.toInt e.VoxelsPerMM = 0 := by
  unfold BinVOX.VoxelsPerMM
  obtain ⟨⟨h1, h2, h3⟩, _, _, h4⟩ := h
  rw [h1, h2, h3]
  obtain ⟨ok, e⟩ := vpmm_empty h4
  rw [e, toInt_zero]

theorem ofInt_one : ∃ ok, (GoFloat.ofInt 1 : Ieee) = .fin false 1 ok := by
  have h : rnd |(1 : ℚ)| = 1 := by decide +kernel
  show ∃ ok, Ieee.round false ((1 : Int) : ℚ) = _
  rw [Int.cast_one]
  unfold Ieee.round
  have hb : (1 : ℚ) < 2 ^ 1024 := one_lt_pow₀ (by norm_num) (by norm_num)
  rw [dif_pos (by rw [h]; exact hb)]
  refine ⟨⟨by norm_num, hb, by decide +kernel⟩, ?_⟩
  congr 1

theorem fine_toInt {v : Ieee} (h : Fine v) : GoFloat.toInt v ≠ 0 := by
  unfold Fine at h
  obtain ⟨ok, e⟩ := ofInt_one
  rw [e] at h
  cases v with
  | nan => cases h
  | inf s => show minInt ≠ 0; decide
  | fin s a ok' =>
    have h : (Ieee.lt (.fin false 1 ok) (.fin s a ok') || Ieee.eq (.fin false 1 ok) (.fin s a ok')) = true := h
    simp only [Ieee.lt, Ieee.eq, Bool.or_eq_true, decide_eq_true_eq] at h
    have h1 : (1 : ℚ) ≤ signed s a := by
      have : signed false (1 : ℚ) = 1 := rfl
      rw [this] at h
      rcases h with h | h
      · exact le_of_lt h
      · exact le_of_eq h
    show Ieee.toInt _ ≠ 0
    unfold Ieee.toInt
    dsimp only
    rw [if_pos (le_trans zero_le_one h1)]
    have : 1 ≤ (signed s a).floor := by
      rw [Rat.le_floor_iff]
      exact_mod_cast h1
    split
    · omega
    · decide

/-- **C124.** An empty model is added to a shell with voxels exactly if the shell has less than one voxel per mm (as an int);
    otherwise `Add` fails. -/
theorem add_empty_iff (sch : AddSched) {vs : VShell Ieee} {e : BinVOX Ieee} (he : EmptyModel e) (hne : vs.Voxels ≠ []) :
    vs.Add sch e = none ↔ GoFloat.toInt vs.VoxelsPerMM ≠ 0 := by
  rw [Add_eq _ _ _ hne, empty_vpmm he]
  split <;> simp_all

/-- **C124.** An empty file after others: if the shell merged so far has voxels and at least one voxel per mm, `Merge` fails,
    whatever else there is to merge. -/
theorem merge_empty_later {pre post : List (AddSched × Option (BinVOX Ieee))} {vs : VShell Ieee} {e : BinVOX Ieee} (sch : AddSched)
    (hm : VShell.Merge pre = some (some vs)) (hne : vs.Voxels ≠ []) (hf : Fine vs.VoxelsPerMM) (he : EmptyModel e) :
    VShell.Merge (pre ++ (sch, some e) :: post) = none := by
  unfold VShell.Merge at hm ⊢
  rw [List.foldl_append, hm, List.foldl_cons]
  have : VShell.mergeStep (some (some vs)) (sch, some e) = none := by
    unfold VShell.mergeStep
    dsimp only
    rw [(add_empty_iff sch he hne).mpr (fine_toInt hf)]
    rfl
  rw [this]
  exact merge_none _

/-! ## An empty file first -/

/-- The shell of empty files: no voxels, no dimensions, the place and scale of the first. -/
structure EmptyShell (e : BinVOX Ieee) (vs : VShell Ieee) : Prop where
  dims : vs.NX = 0 ∧ vs.NY = 0 ∧ vs.NZ = 0
  place : vs.TX = e.TX ∧ vs.TY = e.TY ∧ vs.TZ = e.TZ
  scale : vs.Scale = e.Scale
  voxels : vs.Voxels = []

theorem empty_fold {e : BinVOX Ieee} (he : EmptyModel e) : ∀ (es : List (AddSched × BinVOX Ieee)) (vs : VShell Ieee), EmptyShell e vs →
    (∀ f ∈ es, EmptyModel f.2 ∧ f.1.Valid f.2 0 0 0) →
    ∃ vs', (es.map fun f => (f.1, some f.2)).foldl VShell.mergeStep (some (some vs)) = some (some vs') ∧ EmptyShell e vs' := by
  intro es
  induction es with
  | nil => intro vs h _; exact ⟨vs, rfl, h⟩
  | cons f es ih =>
    intro vs h hes
    obtain ⟨hf, hv⟩ := hes f (by simp)
    have hmk : movedKeys f.1 ⟨0, 0, 0⟩ = [] := by
      rw [List.eq_nil_iff_forall_not_mem]
      intro k hk
      rw [mem_movedKeys (bv := f.2) (p := ⟨0, 0, 0⟩) hv, moved_zero, Cmd.occ_white hf.color] at hk
      unfold Vox at hk
      rw [hf.white] at hk
      simp [GoMap.has, GoMap.get] at hk
    have hord : f.1.ordLookup = [] := by
      rw [List.eq_nil_iff_forall_not_mem]
      intro k hk
      rw [mem_ordLookup (bv := f.2) (p := ⟨0, 0, 0⟩) hv, moved_zero, Cmd.occ_white hf.color] at hk
      unfold Vox at hk
      rw [hf.white] at hk
      simp [GoMap.has, GoMap.get] at hk
    have hvp : GoFloat.eq vs.VoxelsPerMM vs.VoxelsPerMM = true := by
      unfold VShell.VoxelsPerMM
      rw [h.dims.1, h.dims.2.1, h.dims.2.2, h.scale]
      obtain ⟨ok, e1⟩ := vpmm_empty he.scale
      rw [e1]
      show Ieee.eq _ _ = true
      simp [Ieee.eq]
    have hg : grown vs [] = vs := by
      have e0 : grown vs [] = VShell.adjustScale vs vs.VoxelsPerMM := rfl
      rw [e0]
      unfold VShell.adjustScale
      dsimp only
      rw [hvp]
      rfl
    have hadd : vs.Add f.1 f.2 = some { vs with Voxels := addVoxels f.1.cap (lookupOf f.1 ⟨0, 0, 0⟩) f.1.ordLookup [] } := by
      rw [Add_eq_nil _ _ _ h.voxels, hmk, hg]
    obtain ⟨vs', h1, h2⟩ := ih { vs with Voxels := addVoxels f.1.cap (lookupOf f.1 ⟨0, 0, 0⟩) f.1.ordLookup [] }
      ⟨h.dims, h.place, h.scale, by rw [hord]; rfl⟩ (fun f hf => hes f (by simp [hf]))
    refine ⟨vs', ?_, h2⟩
    rw [List.map_cons, List.foldl_cons]
    have : VShell.mergeStep (some (some vs)) (f.1, some f.2) =
        some (some { vs with Voxels := addVoxels f.1.cap (lookupOf f.1 ⟨0, 0, 0⟩) f.1.ordLookup [] }) := by
      unfold VShell.mergeStep
      dsimp only
      rw [hadd]
      rfl
    rw [this]
    exact h1

theorem rnd_pos_tiny {q : ℚ} (h : (2 : ℚ) ^ (-1074 : Int) ≤ q) : 0 < rnd q := by
  have h1 : rnd ((2 : ℚ) ^ (-1074 : Int)) ≤ rnd q := rnd_mono h
  have h2 : rnd ((2 : ℚ) ^ (-1074 : Int)) = (2 : ℚ) ^ (-1074 : Int) := by decide +kernel
  rw [h2] at h1
  exact lt_of_lt_of_le (by positivity) h1

/-- Going from dimension 0 to dimension `d`: the scale becomes infinite. -/
theorem scale_blows {vs : VShell Ieee} (hd : vs.NX = 0 ∧ vs.NY = 0 ∧ vs.NZ = 0) (hs : PositiveScale vs.Scale) {w : VShell Ieee}
    (hw : w.Scale = vs.Scale) (h1 : 1 ≤ w.Dim) (h2 : w.Dim ≤ maxInt) : (w.adjustScale vs.VoxelsPerMM).Scale = .inf false := by
  have hpos := positive_not_le hs
  have e0 : ∃ ok, vs.VoxelsPerMM = .fin false 0 ok := by
    unfold VShell.VoxelsPerMM
    rw [hd.1, hd.2.1, hd.2.2]
    exact vpmm_empty hs
  obtain ⟨ok0, e0⟩ := e0
  obtain ⟨a, oka, ea, ha⟩ := hs
  -- the dimension as a number
  have hdq : (1 : ℚ) ≤ (w.Dim : ℚ) := by exact_mod_cast h1
  have hdm : (w.Dim : ℚ) ≤ 2 ^ 63 := by
    have : w.Dim ≤ 2 ^ 63 := le_trans h2 (by decide)
    exact_mod_cast this
  have r1 : (1 : ℚ) ≤ rnd |(w.Dim : ℚ)| := by
    rw [abs_of_nonneg (le_trans zero_le_one hdq)]
    have := rnd_mono hdq
    rwa [show rnd 1 = 1 by decide +kernel] at this
  have r2 : rnd |(w.Dim : ℚ)| < 2 ^ 1024 := by
    rw [abs_of_nonneg (le_trans zero_le_one hdq)]
    have := rnd_mono hdm
    rw [show rnd (2 ^ 63) = 2 ^ 63 by decide +kernel] at this
    exact lt_of_le_of_lt this (pow_lt_pow_right₀ (by norm_num) (by norm_num))
  have ed : ∃ m ok, (GoFloat.ofInt w.Dim : Ieee) = .fin false m ok ∧ 1 ≤ m := by
    show ∃ m ok, Ieee.round false (w.Dim : ℚ) = .fin false m ok ∧ 1 ≤ m
    unfold Ieee.round
    rw [dif_pos r2]
    refine ⟨rnd |(w.Dim : ℚ)|, ⟨rnd_nonneg (abs_nonneg _), r2, rnd_rnd _⟩, ?_, r1⟩
    congr 1
    rw [if_neg (by linarith)]
    simp
    omega
  obtain ⟨m, okm, em, hm⟩ := ed
  -- the resolution afterwards
  have eav : (∃ b ok, w.VoxelsPerMM = .fin false b ok ∧ 0 < b) ∨ w.VoxelsPerMM = .inf false := by
    unfold VShell.VoxelsPerMM vpmmOf
    rw [hw, hpos]
    simp only [Bool.false_eq_true, if_false]
    have hD : dimOf w.NX w.NY w.NZ = w.Dim := rfl
    rw [hD, em, ea]
    show (∃ b ok, Ieee.div _ _ = _ ∧ _) ∨ Ieee.div _ _ = _
    unfold Ieee.div
    dsimp only
    rw [if_neg (ne_of_gt ha)]
    have hq : signed false m / signed false a = m / a := rfl
    have hqp : 0 < m / a := div_pos (lt_of_lt_of_le zero_lt_one hm) ha
    rw [hq]
    unfold Ieee.round
    have hr : 0 < rnd |m / a| := by
      rw [abs_of_pos hqp]
      apply rnd_pos_tiny
      rw [le_div_iff₀ ha]
      have h3 : (2 : ℚ) ^ (-1074 : Int) * a ≤ (2 : ℚ) ^ (-1074 : Int) * 2 ^ 1024 :=
        mul_le_mul_of_nonneg_left (le_of_lt oka.2.1) (by positivity)
      have h4 : (2 : ℚ) ^ (-1074 : Int) * 2 ^ 1024 ≤ 1 := by
        rw [← zpow_natCast, ← zpow_add₀ (by norm_num)]
        exact zpow_le_one_of_nonpos₀ (by norm_num) (by norm_num)
      exact le_trans h3 (le_trans h4 hm)
    by_cases hlt : rnd |m / a| < 2 ^ 1024
    · left
      rw [dif_pos hlt]
      refine ⟨rnd |m / a|, ⟨le_of_lt hr, hlt, rnd_rnd _⟩, ?_, hr⟩
      congr 1
      rw [if_neg (ne_of_gt hqp)]
      simp
      exact le_of_lt hqp
    · right
      rw [dif_neg hlt]
      congr 1
      simp
      exact le_of_lt hqp
  have hmulinf : Ieee.mul w.Scale (.inf false) = .inf false := by
    rw [hw, ea]
    unfold Ieee.mul
    dsimp only
    rw [if_neg (ne_of_gt ha)]
    rfl
  unfold VShell.adjustScale
  dsimp only
  rw [e0]
  rcases eav with ⟨b, okb, eb, hb⟩ | eb
  · have : GoFloat.eq (Ieee.fin false 0 ok0) w.VoxelsPerMM = false := by
      rw [eb]
      show Ieee.eq _ _ = false
      simp [Ieee.eq, signed]
      exact ne_of_lt hb
    rw [this]
    simp only [Bool.not_false, if_true]
    rw [eb]
    show Ieee.mul w.Scale (Ieee.div _ _) = _
    have : Ieee.div (.fin false b okb) (.fin false 0 ok0) = .inf false := by
      unfold Ieee.div
      simp [ne_of_gt hb]
    rw [this]
    exact hmulinf
  · have : GoFloat.eq (Ieee.fin false 0 ok0) w.VoxelsPerMM = false := by
      rw [eb]
      rfl
    rw [this]
    simp only [Bool.not_false, if_true]
    rw [eb]
    show Ieee.mul w.Scale (Ieee.div _ _) = _
    have : Ieee.div (.inf false) (.fin false 0 ok0) = .inf false := rfl
    rw [this]
    exact hmulinf

/-- A model as a file holds it: voxels, all white and inside the dimensions. -/
structure PlainModel (b : BinVOX Ieee) : Prop where
  dims : b.NX ≤ maxInt ∧ b.NY ≤ maxInt ∧ b.NZ ≤ maxInt
  some : b.white ≠ []
  color : b.ColorVoxels = none
  inside : ∀ k, Vox b k → InDims b.NX b.NY b.NZ k

theorem merge_from_first (f : AddSched × Option (BinVOX Ieee)) (fs : List (AddSched × Option (BinVOX Ieee))) :
    VShell.Merge (f :: fs) = fs.foldl VShell.mergeStep (VShell.mergeStep (some none) f) := rfl

theorem merge_empties {s0 : AddSched} {e : BinVOX Ieee} (he : EmptyModel e) (es : List (AddSched × BinVOX Ieee))
    (hes : ∀ f ∈ es, EmptyModel f.2 ∧ f.1.Valid f.2 0 0 0) :
    ∃ vs, VShell.Merge (((s0, e) :: es).map fun f => (f.1, some f.2)) = some (some vs) ∧ EmptyShell e vs := by
  rw [List.map_cons, merge_from_first]
  have h0 : VShell.mergeStep (some none) (s0, some e) =
      some (some (⟨e.NX, e.NY, e.NZ, e.TX, e.TY, e.TZ, e.Scale, []⟩ : VShell Ieee)) := by
    unfold VShell.mergeStep VShell.New
    dsimp only
    rw [he.white]
    rfl
  dsimp only
  rw [h0]
  exact empty_fold he es _ ⟨he.dims, ⟨rfl, rfl, rfl⟩, rfl, rfl⟩ hes

/-- **C124.** Empty files first, then one with voxels: no error, but the shell is given an infinite scale and the place of the first
    empty file; the voxels are where they are in their own file, wherever that file's model is in space. -/
theorem merge_empty_first {s0 s1 : AddSched} {e b : BinVOX Ieee} (he : EmptyModel e) (es : List (AddSched × BinVOX Ieee))
    (hes : ∀ f ∈ es, EmptyModel f.2 ∧ f.1.Valid f.2 0 0 0) (hb : PlainModel b) (hv : s1.Valid b 0 0 0) :
    ∃ vs, VShell.Merge (((s0, e) :: es ++ [(s1, b)]).map fun f => (f.1, some f.2)) = some (some vs) ∧ vs.Scale = .inf false ∧
      (vs.TX = e.TX ∧ vs.TY = e.TY ∧ vs.TZ = e.TZ) ∧ IsShell (Vox b) vs.Voxels ∧ vs.Voxels ≠ [] ∧
      (1 ≤ vs.Dim ∧ vs.Dim ≤ maxInt) := by
  obtain ⟨w, hw, hE⟩ := merge_empties (s0 := s0) he es hes
  have hocc : Moved (Occ b) ⟨0, 0, 0⟩ = Vox b := by
    rw [moved_zero]; funext k; exact propext (Cmd.occ_white hb.color k)
  have hmk : ∀ k, k ∈ movedKeys s1 ⟨0, 0, 0⟩ ↔ Vox b k := by
    intro k; rw [mem_movedKeys (bv := b) (p := ⟨0, 0, 0⟩) hv, hocc]
  have hsh : IsShell (Vox b) (addVoxels s1.cap (lookupOf s1 ⟨0, 0, 0⟩) s1.ordLookup []) := by
    have h := addVoxels_exact (S := fun _ => False) s1.cap (voxels := []) (isShell_nil (fun _ h => h))
      (lookupOf_has (bv := b) (p := ⟨0, 0, 0⟩) hv) (mem_ordLookup (bv := b) (p := ⟨0, 0, 0⟩) hv) hv.nodup (fun _ _ h => h) (Or.inl rfl)
    refine (isShell_congr ?_ _).mp h
    intro k
    unfold KUnion
    rw [hocc]
    simp
  obtain ⟨k0, hk0⟩ : ∃ k, Vox b k := by
    obtain ⟨k, hk⟩ := white_occ hb.some
    exact ⟨k, (Cmd.occ_white hb.color k).mp hk⟩
  let g : VShell Ieee := { w with NX := cover w.NX ((movedKeys s1 ⟨0, 0, 0⟩).map Key.X), NY := cover w.NY ((movedKeys s1 ⟨0, 0, 0⟩).map Key.Y),
                                  NZ := cover w.NZ ((movedKeys s1 ⟨0, 0, 0⟩).map Key.Z) }
  have hup : ∀ (f : Key → Int) (n : Int), n ≤ maxInt → (∀ k, Vox b k → f k < n) →
      cover 0 ((movedKeys s1 ⟨0, 0, 0⟩).map f) ≤ maxInt := by
    intro f n hn hf
    refine cover_le _ _ _ (by decide) ?_
    intro c hc
    obtain ⟨k, hk, rfl⟩ := List.mem_map.mp hc
    have := hf k ((hmk k).mp hk)
    omega
  have hdims := hb.dims
  have hg1 : 1 ≤ g.Dim := by
    have h1 := (le_cover w.NX ((movedKeys s1 ⟨0, 0, 0⟩).map Key.X)).2 k0.X (List.mem_map_of_mem ((hmk k0).mpr hk0))
    have h2 := (hb.inside k0 hk0).1
    have h3 : g.NX ≤ g.Dim := (dimOf_le _ _ _).1
    have h4 : g.NX = cover w.NX ((movedKeys s1 ⟨0, 0, 0⟩).map Key.X) := rfl
    omega
  have hg2 : g.Dim ≤ maxInt := by
    have a1 := hup Key.X b.NX hdims.1 (fun k hk => (hb.inside k hk).2.1)
    have a2 := hup Key.Y b.NY hdims.2.1 (fun k hk => (hb.inside k hk).2.2.2.1)
    have a3 := hup Key.Z b.NZ hdims.2.2 (fun k hk => (hb.inside k hk).2.2.2.2.2)
    show dimOf (cover w.NX _) (cover w.NY _) (cover w.NZ _) ≤ maxInt
    rw [hE.dims.1, hE.dims.2.1, hE.dims.2.2]
    unfold dimOf
    dsimp only
    split <;> split <;> assumption
  have hadd : w.Add s1 b = some { g.adjustScale w.VoxelsPerMM with
      Voxels := addVoxels s1.cap (lookupOf s1 ⟨0, 0, 0⟩) s1.ordLookup [] } := by
    rw [Add_eq_nil _ _ _ hE.voxels]
    rfl
  refine ⟨{ g.adjustScale w.VoxelsPerMM with Voxels := addVoxels s1.cap (lookupOf s1 ⟨0, 0, 0⟩) s1.ordLookup [] }, ?_, ?_, ?_, hsh, ?_, ?_⟩
  · unfold VShell.Merge at hw ⊢
    rw [List.map_append, List.foldl_append, hw]
    show VShell.mergeStep (some (some w)) (s1, some b) = _
    unfold VShell.mergeStep
    dsimp only
    rw [hadd]
    rfl
  · exact scale_blows hE.dims (by rw [hE.scale]; exact he.scale) rfl hg1 hg2
  · dsimp only
    have := adjustScale_dims g w.VoxelsPerMM
    rw [this.2.2.2.1, this.2.2.2.2.1, this.2.2.2.2.2]
    exact hE.place
  · dsimp only
    have hl : ∀ k, Vox b k → k ∈ b.white.keys := fun k hk => (GoMap.mem_keys_iff _ _).mpr hk
    exact keeps_ne_nil (keeps_of_shell hsh) _ hl hk0
  · have := adjustScale_dims g w.VoxelsPerMM
    show 1 ≤ dimOf (g.adjustScale _).NX (g.adjustScale _).NY (g.adjustScale _).NZ ∧ dimOf (g.adjustScale _).NX (g.adjustScale _).NY (g.adjustScale _).NZ ≤ maxInt
    rw [this.1, this.2.1, this.2.2.1]
    exact ⟨hg1, hg2⟩

theorem div_inf {s : Bool} {a : ℚ} {ok} : (GoFloat.div (Ieee.fin s a ok) (Ieee.inf false) : Ieee) = Ieee.round (s != false) 0 := by
  show Ieee.div _ _ = _
  unfold Ieee.div
  with_reducible rfl

theorem div_inf_zero {s : Bool} {a : ℚ} {ok} : GoFloat.toInt (GoFloat.div (Ieee.fin s a ok) (Ieee.inf false)) = 0 := by
  obtain ⟨ok', e'⟩ := round_zero (s != false)
  rw [div_inf, e']
  exact toInt_zero

/-- **C124.** And every further file with at least one voxel per mm makes the merge fail, whatever comes after it. -/
theorem merge_empty_first_fails {s0 s1 s2 : AddSched} {e b b2 : BinVOX Ieee} (he : EmptyModel e) (es : List (AddSched × BinVOX Ieee))
    (hes : ∀ f ∈ es, EmptyModel f.2 ∧ f.1.Valid f.2 0 0 0) (hb : PlainModel b) (hv : s1.Valid b 0 0 0)
    (hf : Fine b2.VoxelsPerMM) (post : List (AddSched × Option (BinVOX Ieee))) :
    VShell.Merge ((((s0, e) :: es ++ [(s1, b)]).map fun f => (f.1, some f.2)) ++ (s2, some b2) :: post) = none := by
  obtain ⟨vs, h1, h2, -, -, h3, h4⟩ := merge_empty_first (s0 := s0) he es hes hb hv
  unfold VShell.Merge at h1 ⊢
  rw [List.foldl_append, h1, List.foldl_cons]
  have hz : GoFloat.toInt vs.VoxelsPerMM = 0 := by
    unfold VShell.VoxelsPerMM vpmmOf
    have : GoFloat.le (Ieee.inf false) (GoFloat.ofInt 0) = false := by
      obtain ⟨ok, e0⟩ := ofInt_zero
      rw [e0]
      rfl
    rw [h2, this]
    simp only [Bool.false_eq_true, if_false]
    have hdiv : ∀ x : Ieee, (∃ s a ok, x = .fin s a ok) → GoFloat.toInt (GoFloat.div x (.inf false)) = 0 := by
      rintro _ ⟨s, a, ok, rfl⟩
      exact div_inf_zero
    apply hdiv
    show ∃ s a ok, Ieee.round false (vs.Dim : ℚ) = _
    have r2 : rnd |(vs.Dim : ℚ)| < 2 ^ 1024 := by
      have hd0 : (0 : ℚ) ≤ (vs.Dim : ℚ) := by exact_mod_cast (show (0 : Int) ≤ vs.Dim by omega)
      rw [abs_of_nonneg hd0]
      have hdm : (vs.Dim : ℚ) ≤ 2 ^ 63 := by
        have : vs.Dim ≤ 2 ^ 63 := le_trans h4.2 (by decide)
        exact_mod_cast this
      have := rnd_mono hdm
      rw [show rnd (2 ^ 63) = 2 ^ 63 by decide +kernel] at this
      exact lt_of_le_of_lt this (pow_lt_pow_right₀ (by norm_num) (by norm_num))
    unfold Ieee.round
    rw [dif_pos r2]
    exact ⟨_, _, _, rfl⟩
  have : VShell.mergeStep (some (some vs)) (s2, some b2) = none := by
    unfold VShell.mergeStep
    dsimp only
    rw [Add_eq _ _ _ h3, hz, if_pos (Ne.symm (fine_toInt hf))]
    rfl
  rw [this]
  exact merge_none _

/-! ## Where empty files come from -/

section Files
open Cmd
variable {d : Disk} {fl : CutDiceFlags} {base : Bytes} {cuts : List Bytes} {bw : BinVOX Ieee} {whole : Bytes → BinVOX Ieee}

/-- **C124.** A tile of voxcut-dice in which nothing is left and which no cut file reaches is not an error: its file is that of an
    empty model. -/
theorem cut_tile_empty (J : CutJob d fl base cuts bw whole) {t : Key} (ht : IsTile bw.NX bw.NY bw.NZ fl.size t)
    (hs : PositiveScale bw.Scale) (hn : ¬ SomeLeft bw cuts whole fl.size t) (hno : ¬ NothingLeft bw cuts whole fl.size t) :
    ∃ b : BinVOX Ieee, cutModel (F := Ieee) d (tileFlags fl t) = some b ∧
      ∀ d' : Disk, d' (cutOut fl.binvoxPrefix ".binvox" fl.size t) = some (b.write ⟨[], []⟩ ⟨t.X, t.Y, t.Z, fl.size, fl.size, fl.size⟩).1.out →
      ∃ m, BinVOX.Read (F := Ieee) (input d' (cutOut fl.binvoxPrefix ".binvox" fl.size t)) wholeRegion = some m ∧ EmptyModel m := by
  have hne : cutModel (F := Ieee) d (tileFlags fl t) ≠ none := fun h => hno ((job_none_iff IeeeT.whiteCancels_ieee J ht).mp h)
  obtain ⟨b, hb⟩ := Option.ne_none_iff_exists'.mp hne
  refine ⟨b, hb, fun d' hd => ?_⟩
  obtain ⟨⟨-, -, -, -, -, -, hsc, -⟩, hv⟩ := job_model IeeeT.whiteCancels_ieee J ht hb
  have hw : b.white = [] := by
    by_contra hc
    cases hk : b.white with
    | nil => exact hc hk
    | cons p l =>
      have : Vox b p.1 := by
        unfold Vox
        rw [← GoMap.mem_keys_iff, hk]
        simp [GoMap.keys]
      obtain ⟨h1, h2⟩ := (hv _).mp this
      exact hn ⟨_, h2, h1⟩
  obtain ⟨m, h1, -, h2, h3, h4, -, -, -, h5, h6⟩ := write_read_empty b hw ⟨t.X, t.Y, t.Z, fl.size, fl.size, fl.size⟩
  refine ⟨m, by unfold input; rw [hd]; exact h1, ⟨h2, h3, h4⟩, ?_, ?_, by rw [h5, hsc]; exact hs⟩
  · by_contra hc
    cases hk : m.white with
    | nil => exact hc hk
    | cons p l =>
      refine h6 p.1 ?_
      unfold Vox
      rw [← GoMap.mem_keys_iff, hk]
      simp [GoMap.keys]
  · obtain ⟨_, _, _, _, _, _, _, _, _, _, rfl⟩ := (read_iff _ _ _).mp h1
    rfl

end Files

/-! ## Examples -/

/-- An empty model, as it is read from its file. -/
def exEmpty : BinVOX Ieee := ⟨0, 0, 0, GoFloat.ofInt 7, GoFloat.ofInt 0, GoFloat.ofInt 0, GoFloat.ofInt 2, some [], none⟩

theorem two_lt : (2 : ℚ) < 2 ^ 1024 :=
  calc (2 : ℚ) = 2 ^ 1 := by norm_num
    _ < 2 ^ 1024 := pow_lt_pow_right₀ (by norm_num) (by norm_num)

theorem exEmpty_empty : EmptyModel exEmpty := by
  refine ⟨⟨rfl, rfl, rfl⟩, rfl, rfl, 2, ⟨by norm_num, two_lt, by decide +kernel⟩, ?_, by norm_num⟩
  show Ieee.round false ((2 : Int) : ℚ) = _
  have h : rnd |((2 : Int) : ℚ)| = 2 := by decide +kernel
  unfold Ieee.round
  rw [dif_pos (by rw [h]; exact two_lt)]
  congr 1

theorem threeAtI_plain (t : Int) : PlainModel (threeAtI t) := by
  have hm : (3 : Int) ≤ maxInt ∧ (1 : Int) ≤ maxInt ∧ (1 : Int) ≤ maxInt := by decide
  refine ⟨hm, (by intro h; cases h), rfl, ?_⟩
  intro k hk
  have : k = ⟨2, 0, 0⟩ := by
    have hk : GoMap.has ([(⟨2, 0, 0⟩, ())] : WhiteVoxelMap) k = true := hk
    rw [← GoMap.mem_keys_iff] at hk
    simpa [GoMap.keys] using hk
  rw [this]
  show InDims 3 1 1 ⟨2, 0, 0⟩
  unfold InDims
  decide

theorem threeAtI_fine (t : Int) : Fine (threeAtI t).VoxelsPerMM := by
  have : (threeAtI t).VoxelsPerMM = vpmmOf 3 1 1 (GoFloat.ofInt 2) := by unfold BinVOX.VoxelsPerMM threeAtI; with_reducible rfl
  rw [this]
  unfold Fine
  decide +kernel

/-- The file with voxels first: the empty one is refused. -/
example : VShell.Merge [(oneSch ⟨2, 0, 0⟩ ⟨0, 0, 0⟩, some (threeAtI 0)), (⟨[], [], [], 0⟩, some exEmpty)] = none := by
  have hv := oneSch_valid (bv := threeAtI 0) ⟨0, 0, 0⟩ rfl rfl
  have hm : VShell.Merge [(oneSch ⟨2, 0, 0⟩ ⟨0, 0, 0⟩, some (threeAtI 0))] = some (some
      { grown ⟨3, 1, 1, (threeAtI 0).TX, (threeAtI 0).TY, (threeAtI 0).TZ, (threeAtI 0).Scale, []⟩ [⟨2, 0, 0⟩] with Voxels := [⟨2, 0, 0, 0⟩] }) := by
    have := new_one (sch := oneSch ⟨2, 0, 0⟩ ⟨0, 0, 0⟩) (bv := threeAtI 0) rfl rfl hv (by decide +kernel)
    unfold VShell.Merge
    show (VShell.New (oneSch ⟨2, 0, 0⟩ ⟨0, 0, 0⟩) (threeAtI 0)).map some = _
    rw [this]
    rfl
  exact merge_empty_later (pre := [_]) (post := []) _ hm (by simp) (by unfold Fine; decide +kernel) exEmpty_empty

/-- The empty file first: an infinite scale, and with a third file an error. -/
example : (∃ vs, VShell.Merge [(⟨[], [], [], 0⟩, some exEmpty), (oneSch ⟨2, 0, 0⟩ ⟨0, 0, 0⟩, some (threeAtI 0))] = some (some vs) ∧
      vs.Scale = .inf false ∧ vs.TX = GoFloat.ofInt 7) ∧
    VShell.Merge [(⟨[], [], [], 0⟩, some exEmpty), (oneSch ⟨2, 0, 0⟩ ⟨0, 0, 0⟩, some (threeAtI 0)),
      (oneSch ⟨2, 0, 0⟩ ⟨6, 0, 0⟩, some (threeAtI 4))] = none := by
  have hv := oneSch_valid (bv := threeAtI 0) ⟨0, 0, 0⟩ rfl rfl
  constructor
  · obtain ⟨vs, h1, h2, h3, -⟩ := merge_empty_first (s0 := ⟨[], [], [], 0⟩) exEmpty_empty [] (by simp) (threeAtI_plain 0) hv
    exact ⟨vs, h1, h2, h3.1⟩
  · exact merge_empty_first_fails (s0 := ⟨[], [], [], 0⟩) exEmpty_empty [] (by simp) (threeAtI_plain 0) hv (threeAtI_fine 4) []

section
open Cmd

/-- A bar of three voxels of which only the first is set. -/
def exBarI : BinVOX Ieee := ⟨3, 1, 1, GoFloat.ofInt 0, GoFloat.ofInt 0, GoFloat.ofInt 0, GoFloat.ofInt 2, some [(⟨0, 0, 0⟩, ())], none⟩

/-- `voxcut-dice -size 1 -obinvox o b` on that bar: the tile at `(2,0,0)` gets the file of an empty model. -/
example : ∃ (d d' : Disk) (fl : CutDiceFlags) (m : BinVOX Ieee),
    cutDiceFlags [ascii "-size", ascii "1", ascii "--obinvox=o", ascii "b"] = some (false, fl) ∧
    (∃ b, cutModel (F := Ieee) d (tileFlags fl ⟨2, 0, 0⟩) = some b ∧
      d' (cutOut fl.binvoxPrefix ".binvox" fl.size ⟨2, 0, 0⟩) = some (b.write ⟨[], []⟩ ⟨2, 0, 0, fl.size, fl.size, fl.size⟩).1.out) ∧
    BinVOX.Read (F := Ieee) (input d' (cutOut fl.binvoxPrefix ".binvox" fl.size ⟨2, 0, 0⟩)) wholeRegion = some m ∧ EmptyModel m := by
  obtain ⟨bw, r1, x1, y1, z1, _, _, _, s1, _, _, v1⟩ := write_region_read exBarI (by intro h; cases h) wholeRegion
    (show (0 : Int) ≤ 3 ∧ (3 : Int) ≤ maxInt by decide) (show (0 : Int) ≤ 1 ∧ (1 : Int) ≤ maxInt by decide)
    (show (0 : Int) ≤ 1 ∧ (1 : Int) ≤ maxInt by decide)
  have x1 : bw.NX = 3 := x1
  have y1 : bw.NY = 1 := y1
  have z1 : bw.NZ = 1 := z1
  generalize hc : (exBarI.write ⟨[], []⟩ wholeRegion).1.out = c at r1
  let d : Disk := put (fun _ => none) (ascii "b") c
  have h1 : Holds d (ascii "b") bw := by
    refine ⟨?_, by omega, by omega, by omega⟩
    unfold input
    rw [show d (ascii "b") = some c from put_self _ _ _]
    exact r1
  have J : CutJob d ⟨1, ascii "o", [], [], [ascii "b"]⟩ (ascii "b") [] bw (fun _ => bw) := by
    refine ⟨rfl, h1, by simp, ?_, by decide, ?_, by decide, Or.inl (by decide), ?_⟩
    · rw [x1, y1, z1]; decide
    · rw [x1, y1, z1]; exact tilesFit_of_le (by decide) (by decide) (by decide)
    · intro f hf t ht hm
      rw [List.mem_singleton] at hf
      subst hf
      unfold cutOuts at hm
      simp only [List.mem_cons, List.not_mem_nil, or_false] at hm
      rcases hm with hm | hm | hm
      · obtain ⟨body, dg, _, e2⟩ := cutOut_last (pre := ascii "o") ".binvox" 1 t (by decide) (by decide)
        rw [e2] at hm
        have := congrArg List.length hm
        rw [List.length_append, List.length_cons] at this
        have l1 : (ascii "b").length = 1 := rfl
        have l2 : (ascii ".binvox").length = 7 := rfl
        omega
      · rw [(cutOut_nil_iff _ _ _ _).mpr rfl] at hm
        cases hm
      · rw [(cutOut_nil_iff _ _ _ _).mpr rfl] at hm
        cases hm
  have ht : IsTile bw.NX bw.NY bw.NZ 1 ⟨2, 0, 0⟩ := by
    unfold IsTile InDims
    rw [x1, y1, z1]
    simp
  have hs : PositiveScale bw.Scale := by
    rw [s1]
    exact exEmpty_empty.scale
  obtain ⟨b, hb, hall⟩ := cut_tile_empty J ht hs (by
    rintro ⟨k, hk, hv, -⟩
    rw [v1] at hv
    have hv : GoMap.has ([(⟨0, 0, 0⟩, ())] : WhiteVoxelMap) (k.shift 0 0 0) = true := hv.2
    rw [← GoMap.mem_keys_iff] at hv
    obtain ⟨a, b, c⟩ := k
    simp [GoMap.keys, Key.shift] at hv
    obtain ⟨⟨h1, _⟩, _⟩ := hk
    dsimp only at h1
    omega) (by rintro ⟨⟨c, hc, _⟩, _⟩; cases hc)
  obtain ⟨m, hm1, hm2⟩ := hall (put d (cutOut (ascii "o") ".binvox" 1 ⟨2, 0, 0⟩) (b.write ⟨[], []⟩ ⟨2, 0, 0, 1, 1, 1⟩).1.out) (put_self _ _ _)
  exact ⟨d, _, _, m, rfl, ⟨b, hb, put_self _ _ _⟩, hm1, hm2⟩

end

end StlDice
