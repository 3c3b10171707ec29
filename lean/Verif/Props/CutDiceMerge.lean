import Verif.Props.CutDiceRun
import Verif.Props.ShellOverlap
import Verif.Props.MergeBinvoxCmd
import Verif.Props.DiceMergeFloat

/-! # C123: voxcut-dice, then merge-binvox: the tiles are laid on top of one another -/

namespace StlDice
namespace Spec
open BinVOX
variable {F : Type}

/-- What a number type must do for a model to lie exactly on one with the same origin: the distance of a number from itself,
    in voxels, is 0, and a number equals itself.  True of finite floats. -/
structure NoDistance (F : Type) [GoFloat F] : Prop where
  off : ∀ x v : F, GoFloat.toInt (GoFloat.mul (GoFloat.sub x x) v) = 0
  same : ∀ v : F, GoFloat.eq v v = true

/-- Something is left in the tile or the layer beyond it. -/
def SomeLeft (bw : BinVOX F) (cuts : List Bytes) (whole : Bytes → BinVOX F) (size : Int) (t : Key) : Prop :=
  ∃ k, InTilePlus size t k ∧ CutLeft bw cuts whole k

/-- What a reader finds in the binvox file of tile `t`: a cube of `size` voxels a side **at the place of the base**, with the
    voxels left in `[t, t+size)`, moved to the origin. -/
def TileHolds [FloatText F] (d : Cmd.Disk) (fl : CutDiceFlags) (bw : BinVOX F) (cuts : List Bytes) (whole : Bytes → BinVOX F)
    (t : Key) : Prop :=
  ∃ m : BinVOX F, BinVOX.Read (Cmd.input d (cutOut fl.binvoxPrefix ".binvox" fl.size t)) wholeRegion = some m ∧
    (m.NX = fl.size ∧ m.NY = fl.size ∧ m.NZ = fl.size) ∧ (m.TX = bw.TX ∧ m.TY = bw.TY ∧ m.TZ = bw.TZ) ∧ m.Scale = bw.Scale ∧
    m.ColorVoxels = none ∧
    ∀ l, Vox m l ↔ InDims fl.size fl.size fl.size l ∧ CutLeft bw cuts whole (l.shift t.X t.Y t.Z)

/-- The tiles `ts` laid on top of one another: what is left at `t + l` for some `t` of them, `l` a place in a cube of `size`. -/
def Stacked (bw : BinVOX F) (cuts : List Bytes) (whole : Bytes → BinVOX F) (size : Int) (ts : List Key) (l : Key) : Prop :=
  InDims size size size l ∧ ∃ t ∈ ts, CutLeft bw cuts whole (l.shift t.X t.Y t.Z)

end Spec

namespace Cmd
open Spec BinVOX
variable {F : Type}

theorem noDistance_rat : NoDistance ℚ := by
  constructor
  · intro x v
    have : GoFloat.mul (GoFloat.sub x x) v = (0 : ℚ) := by
      show (x - x) * v = 0
      ring
    rw [this]
    decide +kernel
  · intro v
    show decide (v = v) = true
    simp

/-! ## Models with one header -/

/-- A model with the given header, all its voxels in the box. -/
structure HeaderOf (NX NY NZ : Int) (TX TY TZ Scale : F) (m : BinVOX F) : Prop where
  nx : m.NX = NX
  ny : m.NY = NY
  nz : m.NZ = NZ
  tx : m.TX = TX
  ty : m.TY = TY
  tz : m.TZ = TZ
  scale : m.Scale = Scale
  white : m.ColorVoxels = none
  inside : ∀ l, Vox m l → InDims NX NY NZ l

theorem occ_white {m : BinVOX F} (h : m.ColorVoxels = none) (k : Key) : Occ m k ↔ Vox m k := by
  unfold Occ Vox
  have : m.color = [] := by unfold BinVOX.color; rw [h]; rfl
  rw [this]
  simp

variable [GoFloat F] {NX NY NZ : Int} {TX TY TZ Scale : F}

/-- Taking in voxels inside the box leaves the header alone. -/
theorem grown_inside (hF : NoDistance F) {vs : VShell F} {ks : List Key} (h : ∀ k ∈ ks, InDims vs.NX vs.NY vs.NZ k) :
    grown vs ks = vs := by
  have e : ∀ (n : Int) (cs : List Int), (∀ c ∈ cs, c < n) → cover n cs = n := fun n cs hc =>
    le_antisymm (cover_le _ _ _ (le_refl _) hc) (le_cover n cs).1
  have e1 : cover vs.NX (ks.map Key.X) = vs.NX := e _ _ (by
    intro c hc; obtain ⟨k, hk, rfl⟩ := List.mem_map.mp hc; exact (h k hk).2.1)
  have e2 : cover vs.NY (ks.map Key.Y) = vs.NY := e _ _ (by
    intro c hc; obtain ⟨k, hk, rfl⟩ := List.mem_map.mp hc; exact (h k hk).2.2.2.1)
  have e3 : cover vs.NZ (ks.map Key.Z) = vs.NZ := e _ _ (by
    intro c hc; obtain ⟨k, hk, rfl⟩ := List.mem_map.mp hc; exact (h k hk).2.2.2.2.2)
  unfold grown
  rw [e1, e2, e3]
  unfold VShell.adjustScale
  dsimp only
  rw [hF.same]
  rfl

/-- The shell has the header. -/
structure ShellOf (NX NY NZ : Int) (TX TY TZ Scale : F) (vs : VShell F) : Prop where
  nx : vs.NX = NX
  ny : vs.NY = NY
  nz : vs.NZ = NZ
  tx : vs.TX = TX
  ty : vs.TY = TY
  tz : vs.TZ = TZ
  scale : vs.Scale = Scale

omit [GoFloat F] in
theorem moved_in {m : BinVOX F} (hm : HeaderOf NX NY NZ TX TY TZ Scale m) {sch : AddSched} (hv : sch.Valid m 0 0 0) :
    ∀ k ∈ movedKeys sch ⟨0, 0, 0⟩, InDims NX NY NZ k := by
  intro k hk
  rw [mem_movedKeys (bv := m) (p := ⟨0, 0, 0⟩) hv, moved_zero, occ_white hm.white] at hk
  exact hm.inside k hk

/-- Adding a model with the header of the shell: nothing moves, the header stays, the shell keeps the exposed voxels of the union. -/
theorem add_same (hF : NoDistance F) {vs : VShell F} {S : Key → Prop} (hvs : ShellOf NX NY NZ TX TY TZ Scale vs)
    (hS : KeepsShell S vs.Voxels) {l : List Key} (hl : ∀ k, S k → k ∈ l) {m : BinVOX F}
    (hm : HeaderOf NX NY NZ TX TY TZ Scale m) {sch : AddSched} (hv : sch.Valid m 0 0 0) :
    ∃ vs', vs.Add sch m = some vs' ∧ ShellOf NX NY NZ TX TY TZ Scale vs' ∧ KeepsShell (KUnion S (Vox m)) vs'.Voxels := by
  have hin := moved_in hm hv
  have hocc : Moved (Occ m) ⟨0, 0, 0⟩ = Vox m := by
    rw [moved_zero]; funext k; exact propext (occ_white hm.white k)
  have hlk : ∀ k, (lookupOf sch ⟨0, 0, 0⟩).has k = true ↔ Vox m k := by
    intro k; rw [lookupOf_has (bv := m) (p := ⟨0, 0, 0⟩) hv, hocc]
  have hord : ∀ k, k ∈ sch.ordLookup ↔ Vox m k := by
    intro k; rw [mem_ordLookup (bv := m) (p := ⟨0, 0, 0⟩) hv, hocc]
  by_cases hne : vs.Voxels = []
  · rw [Add_eq_nil _ _ _ hne]
    refine ⟨_, rfl, ?_, ?_⟩
    · rw [grown_inside hF (by rw [hvs.nx, hvs.ny, hvs.nz]; exact hin)]
      exact ⟨hvs.nx, hvs.ny, hvs.nz, hvs.tx, hvs.ty, hvs.tz, hvs.scale⟩
    · dsimp only
      have := overlap_add sch.cap (S := S) (voxels := []) (by rw [← hne]; exact hS) hlk hord
      exact this
  · have hd : displacement vs m = ⟨0, 0, 0⟩ := by
      unfold displacement
      rw [hm.tx, hm.ty, hm.tz, hvs.tx, hvs.ty, hvs.tz, hF.off, hF.off, hF.off]
    have hnn : NonNeg (displacement vs m) := by rw [hd]; decide
    have hnm : newMove (displacement vs m) = ⟨0, 0, 0⟩ := by rw [hd]; rfl
    have hu : updated vs m = vs := by
      unfold updated
      dsimp only
      rw [if_pos hnn]
      have e : ∀ x : F, minT x x = x := fun x => by unfold minT; split <;> rfl
      rw [hm.tx, hm.ty, hm.tz, hvs.tx, hvs.ty, hvs.tz, e, e, e, ← hvs.tx, ← hvs.ty, ← hvs.tz]
    have hvp : vs.VoxelsPerMM = m.VoxelsPerMM := by
      unfold VShell.VoxelsPerMM BinVOX.VoxelsPerMM
      rw [hvs.nx, hvs.ny, hvs.nz, hvs.scale, hm.nx, hm.ny, hm.nz, hm.scale]
    rw [Add_eq _ _ _ hne, hvp, if_neg (by simp), hu, hnm]
    refine ⟨_, rfl, ?_, ?_⟩
    · rw [grown_inside hF (by rw [hvs.nx, hvs.ny, hvs.nz]; exact hin)]
      exact ⟨hvs.nx, hvs.ny, hvs.nz, hvs.tx, hvs.ty, hvs.tz, hvs.scale⟩
    · dsimp only
      exact overlap_add sch.cap hS hlk hord

theorem new_same (hF : NoDistance F) {m : BinVOX F} (hm : HeaderOf NX NY NZ TX TY TZ Scale m) {sch : AddSched}
    (hv : sch.Valid m 0 0 0) :
    ∃ vs, VShell.New sch m = some vs ∧ ShellOf NX NY NZ TX TY TZ Scale vs ∧ KeepsShell (Vox m) vs.Voxels := by
  have h0 : KeepsShell (fun _ => False) ([] : List VShVoxel) := ⟨by simp, by simp, by simp⟩
  have hh : ShellOf NX NY NZ TX TY TZ Scale (⟨m.NX, m.NY, m.NZ, m.TX, m.TY, m.TZ, m.Scale, []⟩ : VShell F) :=
    ⟨hm.nx, hm.ny, hm.nz, hm.tx, hm.ty, hm.tz, hm.scale⟩
  unfold VShell.New
  dsimp only
  by_cases hw : m.white.length > 0
  · rw [if_pos hw]
    obtain ⟨vs', h1, h2, h3⟩ := add_same hF hh h0 (l := []) (by simp) hm hv
    refine ⟨vs', h1, h2, ?_⟩
    have : KUnion (fun _ => False) (Vox m) = Vox m := by funext k; unfold KUnion; simp
    rwa [this] at h3
  · rw [if_neg hw]
    refine ⟨_, rfl, hh, ?_⟩
    have hw : m.white = [] := by
      rcases hq : m.white with _ | ⟨a, b⟩
      · rfl
      · rw [hq] at hw; simp at hw
    have : Vox m = fun _ => False := by
      funext k
      unfold Vox
      rw [hw]
      simp [GoMap.has, GoMap.get]
    rw [this]
    exact h0

/-- Merging models that all have one header. -/
theorem merge_same (hF : NoDistance F) (f0 : AddSched × BinVOX F) (fs : List (AddSched × BinVOX F))
    (h : ∀ f ∈ f0 :: fs, HeaderOf NX NY NZ TX TY TZ Scale f.2 ∧ f.1.Valid f.2 0 0 0) :
    ∃ vs, VShell.Merge ((f0 :: fs).map fun f => (f.1, some f.2)) = some (some vs) ∧ ShellOf NX NY NZ TX TY TZ Scale vs ∧
      KeepsShell (fun k => ∃ f ∈ f0 :: fs, Vox f.2 k) vs.Voxels := by
  have fold : ∀ (fs : List (AddSched × BinVOX F)) (vs : VShell F) (S : Key → Prop) (l : List Key),
      (∀ f ∈ fs, HeaderOf NX NY NZ TX TY TZ Scale f.2 ∧ f.1.Valid f.2 0 0 0) → ShellOf NX NY NZ TX TY TZ Scale vs →
      KeepsShell S vs.Voxels → (∀ k, S k → k ∈ l) →
      ∃ vs', (fs.map fun f => (f.1, some f.2)).foldl VShell.mergeStep (some (some vs)) = some (some vs') ∧
        ShellOf NX NY NZ TX TY TZ Scale vs' ∧ KeepsShell (fun k => S k ∨ ∃ f ∈ fs, Vox f.2 k) vs'.Voxels := by
    intro fs
    induction fs with
    | nil =>
      intro vs S l _ hvs hS _
      refine ⟨vs, rfl, hvs, ?_⟩
      have : (fun k => S k ∨ ∃ f ∈ ([] : List (AddSched × BinVOX F)), Vox f.2 k) = S := by funext k; simp
      rwa [this]
    | cons f fs ih =>
      intro vs S l hfs hvs hS hl
      obtain ⟨hm, hv⟩ := hfs f (by simp)
      obtain ⟨vs1, h1, h2, h3⟩ := add_same hF hvs hS hl hm hv
      obtain ⟨vs2, g1, g2, g3⟩ := ih vs1 _ (l ++ f.2.white.keys) (fun f hf => hfs f (by simp [hf])) h2 h3 (by
        rintro k (hk | hk)
        · exact List.mem_append_left _ (hl k hk)
        · exact List.mem_append_right _ ((GoMap.mem_keys_iff _ _).mpr hk))
      refine ⟨vs2, ?_, g2, ?_⟩
      · rw [List.map_cons, List.foldl_cons]
        have e : VShell.mergeStep (some (some vs)) (f.1, some f.2) = some (some vs1) := by
          unfold VShell.mergeStep
          dsimp only
          rw [h1]
          rfl
        rw [e]
        exact g1
      · have e : (fun k => KUnion S (Vox f.2) k ∨ ∃ f ∈ fs, Vox f.2 k) = fun k => S k ∨ ∃ g ∈ f :: fs, Vox g.2 k := by
          funext k
          unfold KUnion
          simp [or_assoc]
        rwa [e] at g3
  obtain ⟨hm, hv⟩ := h f0 (by simp)
  obtain ⟨vs1, h1, h2, h3⟩ := new_same hF hm hv
  obtain ⟨vs2, g1, g2, g3⟩ := fold fs vs1 _ f0.2.white.keys (fun f hf => h f (by simp [hf])) h2 h3
    (fun k hk => (GoMap.mem_keys_iff _ _).mpr hk)
  refine ⟨vs2, ?_, g2, ?_⟩
  · unfold VShell.Merge
    rw [List.map_cons, List.foldl_cons]
    have e : VShell.mergeStep (some none) (f0.1, some f0.2) = some (some vs1) := by
      unfold VShell.mergeStep
      dsimp only
      rw [h1]
      rfl
    rw [e]
    exact g1
  · have e : (fun k => Vox f0.2 k ∨ ∃ f ∈ fs, Vox f.2 k) = fun k => ∃ g ∈ f0 :: fs, Vox g.2 k := by
      funext k; simp
    rwa [e] at g3

/-! ## The tile files -/

variable [FloatText F] {d : Disk} {fl : CutDiceFlags} {base : Bytes} {cuts : List Bytes} {bw : BinVOX F}
  {whole : Bytes → BinVOX F} {float : Bytes → Bool} {lib : GL F}

/-- **C123.** A tile file that was written without a fault holds the tile in a cube at the place of the base. -/
theorem cut_tile_holds [LawfulFloatText F] (hF : WhiteCancels F) (J : CutJob d fl base cuts bw whole) {t : Key}
    (ht : IsTile bw.NX bw.NY bw.NZ fl.size t) (hs : SomeLeft bw cuts whole fl.size t) {b : BinVOX F}
    (hb : cutModel (F := F) d (tileFlags fl t) = some b) {d' : Disk}
    (hd : d' (cutOut fl.binvoxPrefix ".binvox" fl.size t) = some (b.write ⟨[], []⟩ ⟨t.X, t.Y, t.Z, fl.size, fl.size, fl.size⟩).1.out) :
    TileHolds d' fl bw cuts whole t := by
  obtain ⟨⟨h1, h2, h3, h4, h5, h6, h7, -⟩, hv⟩ := job_model hF J ht hb
  obtain ⟨k, hk1, hk2⟩ := hs
  have hne : b.white ≠ [] := by
    intro hn
    have := (hv k).mpr ⟨hk2, hk1⟩
    unfold Vox at this
    rw [hn] at this
    simp [GoMap.has, GoMap.get] at this
  have hsz := J.size
  have er : writeRegion b.NX b.NY b.NZ ⟨t.X, t.Y, t.Z, fl.size, fl.size, fl.size⟩ = ⟨t.X, t.Y, t.Z, fl.size, fl.size, fl.size⟩ := by
    unfold writeRegion
    have : fl.size ≠ 0 := by omega
    simp [this]
  obtain ⟨m, hr, a1, a2, a3, a4, a5, a6, a7, a8, -, a9⟩ := write_region_read b hne ⟨t.X, t.Y, t.Z, fl.size, fl.size, fl.size⟩
    (by rw [er]; exact ⟨by show 0 ≤ fl.size; omega, hsz.2⟩) (by rw [er]; exact ⟨by show 0 ≤ fl.size; omega, hsz.2⟩)
    (by rw [er]; exact ⟨by show 0 ≤ fl.size; omega, hsz.2⟩)
  rw [er] at a1 a2 a3 a9
  refine ⟨m, ?_, ⟨a1, a2, a3⟩, ⟨a4.trans h4, a5.trans h5, a6.trans h6⟩, a7.trans h7, a8, ?_⟩
  · unfold input
    rw [hd]
    exact hr
  · intro l
    rw [a9 l]
    dsimp only
    rw [hv]
    constructor
    · rintro ⟨p, q, -⟩; exact ⟨p, q⟩
    · rintro ⟨p, q⟩
      refine ⟨p, q, ?_⟩
      obtain ⟨b1, b2, b3, b4, b5, b6⟩ := p
      unfold InTilePlus Key.shift
      dsimp only
      omega

/-- A voxcut for a tile whose files can all be written, and the binvox file it leaves. -/
theorem tile_good (J : CutJob d fl base cuts bw whole) (hp : fl.binvoxPrefix ≠ []) {t : Key} {d1 : Disk} {b : BinVOX F}
    (h : cutModel (F := F) d1 (tileFlags fl t) = some b) :
    ∃ d', VoxcutRun (F := F) lib d1 (tileFlags fl t) d' .done ∧
      d' (cutOut fl.binvoxPrefix ".binvox" fl.size t) = some (b.write ⟨[], []⟩ ⟨t.X, t.Y, t.Z, fl.size, fl.size, fl.size⟩).1.out := by
  have hs : 0 ≤ fl.size := by have := J.size.1; omega
  have hob : (tileFlags fl t).obinvox = cutOut fl.binvoxPrefix ".binvox" fl.size t := rfl
  have hne := cutOut_ne_nil (pre := fl.binvoxPrefix) ".binvox" fl.size t hp
  have hg : GoodEnv ⟨true, [], true⟩ := ⟨rfl, rfl, by simp⟩
  have hB : outBinvox (tileFlags fl t) b ⟨true, [], true⟩ d1 =
      (put d1 (cutOut fl.binvoxPrefix ".binvox" fl.size t) (b.write ⟨[], []⟩ ⟨t.X, t.Y, t.Z, fl.size, fl.size, fl.size⟩).1.out, true) := by
    unfold outBinvox
    rw [hob, if_neg hne]
    dsimp only
    rw [write_good_region b _ hg]
    rfl
  have hsv : cutOut fl.binvoxPrefix ".binvox" fl.size t ≠ (tileFlags fl t).ovox ∨ (tileFlags fl t).ovox = [] := by
    by_cases hq : fl.voxPrefix = []
    · exact Or.inr ((cutOut_nil_iff _ _ _ _).mpr hq)
    · exact Or.inl (fun e => vox_ne_binvox hs hq hp e.symm)
  have hV : ∀ d2 : Disk, ∃ d3, outVox (tileFlags fl t) b.white ⟨true, [], true⟩ d2 = (d3, true) ∧
      d3 (cutOut fl.binvoxPrefix ".binvox" fl.size t) = d2 (cutOut fl.binvoxPrefix ".binvox" fl.size t) := by
    intro d2
    unfold outVox
    by_cases hq : (tileFlags fl t).ovox = []
    · rw [if_pos hq]; exact ⟨_, rfl, rfl⟩
    · rw [if_neg hq, if_neg (by decide)]
      dsimp only
      rw [(writeVOX_reports_iff ⟨[], []⟩ _).mpr (by intro i _ k; simp)]
      refine ⟨_, rfl, put_other _ _ ?_⟩
      rcases hsv with h | h
      · exact h
      · exact (hq h).elim
  obtain ⟨d3, hv1, hv2⟩ := hV (put d1 (cutOut fl.binvoxPrefix ".binvox" fl.size t)
    (b.write ⟨[], []⟩ ⟨t.X, t.Y, t.Z, fl.size, fl.size, fl.size⟩).1.out)
  rw [put_self] at hv2
  have h1 : (outBinvox (tileFlags fl t) b ⟨true, [], true⟩ d1).2 = true := by rw [hB]
  have h2 : outVox (tileFlags fl t) b.white ⟨true, [], true⟩ (outBinvox (tileFlags fl t) b ⟨true, [], true⟩ d1).1 = (d3, true) := by
    rw [hB]; exact hv1
  by_cases ho : (tileFlags fl t).ostl = []
  · refine ⟨d3, ?_, hv2⟩
    have := VoxcutRun.last (lib := lib) (ok := true) h h1 (List.Perm.refl _) (by rw [h2]) (.none ho)
    rw [h2] at this
    exact this
  · refine ⟨_, .last (lib := lib) (ok := true) h h1 (List.Perm.refl _) (by rw [h2])
      (.cubes ho rfl ⟨_, _, List.Perm.refl _, List.Perm.refl _, rfl⟩ .ok), ?_⟩
    rw [h2, put_other _ _ ?_]
    · exact hv2
    · intro e
      have hq : fl.stlPrefix ≠ [] := fun hq => ho ((cutOut_nil_iff _ _ _ _).mpr hq)
      exact stl_ne_binvox hs hq hp (show cutOut fl.stlPrefix ".stl" fl.size t = _ from e.symm)

/-- **C123.** On a job that voxcut-dice can finish, if every file can be written, it can end well, and then the files of all tiles in which
    something is left are cubes of one size at one and the same place, the place of the base. -/
theorem cut_dice_tiles_hold [LawfulFloatText F] (hF : WhiteCancels F) (J : CutJob d fl base cuts bw whole) (hp : fl.binvoxPrefix ≠ [])
    {args : List Bytes} (ha : cutDiceFlags args = some (false, fl)) (hsm : ¬ TooSmall bw fl.size)
    (hl : ∀ t, IsTile bw.NX bw.NY bw.NZ fl.size t → ¬ NothingLeft bw cuts whole fl.size t) :
    ∃ d', CutDiceProc (F := F) float lib d args [] d' .done ∧
      ∀ t, IsTile bw.NX bw.NY bw.NZ fl.size t → SomeLeft bw cuts whole fl.size t → TileHolds d' fl bw cuts whole t := by
  obtain ⟨b, hb, e1, e2, e3⟩ := (job_base (F := F) J).2 hsm
  have hs : 0 ≤ fl.size := by have := J.size.1; omega
  have key : ∀ (ts : List Key) (d1 : Disk), (∀ t ∈ ts, IsTile bw.NX bw.NY bw.NZ fl.size t) → ts.Pairwise Before →
      (∀ f ∈ fl.files, d1 f = d f) →
      ∃ d', RunList (runTile (F := F) float lib fl) ts d1 d' .done ∧ (∀ t ∈ ts, SomeLeft bw cuts whole fl.size t → TileHolds d' fl bw cuts whole t) ∧
        ∀ n, (∀ t ∈ ts, n ∉ cutOuts fl t) → d' n = d1 n := by
    intro ts
    induction ts with
    | nil => intro d1 _ _ _; exact ⟨d1, .nil, by simp, fun _ _ => rfl⟩
    | cons t ts ih =>
      intro d1 hts hso hd
      rw [List.pairwise_cons] at hso
      have ht := hts t (by simp)
      have hc : cutModel (F := F) d1 (tileFlags fl t) = cutModel (F := F) d (tileFlags fl t) :=
        cutModel_congr (by intro f hf; exact hd f hf)
      have hne : cutModel (F := F) d (tileFlags fl t) ≠ none := by
        intro h
        exact hl t ht ((job_none_iff hF J ht).mp h)
      obtain ⟨m, hm⟩ := Option.ne_none_iff_exists'.mp hne
      obtain ⟨d2, h2, h2'⟩ := tile_good (lib := lib) J hp (hc.trans hm)
      obtain ⟨d3, h3, h4, h5⟩ := ih d2 (fun u hu => hts u (by simp [hu])) hso.2 (by
        intro f hf
        rw [tile_touches J h2 (J.noClash f hf t ht)]
        exact hd f hf)
      refine ⟨d3, .cons ((job_step J ht).mpr h2) h3, ?_, ?_⟩
      · intro u hu hsl
        rcases List.mem_cons.mp hu with rfl | hu
        · refine cut_tile_holds hF J ht hsl hm ?_
          rw [h5 _ ?_]
          · exact h2'
          · intro v hv
            exact cutOuts_disjoint hs (tile_nonneg ht) (tile_nonneg (hts v (by simp [hv]))) (before_ne (hso.1 v hv))
              (cutOut_ne_nil _ _ _ hp) (by simp [cutOuts])
        · exact h4 u hu hsl
      · intro n hn
        rw [h5 n (fun v hv => hn v (by simp [hv])), tile_touches J h2 (hn t (by simp))]
  obtain ⟨d', h', h'', -⟩ := key (modelFrom bw.NX bw.NY bw.NZ fl.size 0) d (fun t ht => (modelFrom_mem J.size.1 t).mp ht)
    (modelFrom_sorted J.size.1) (fun _ _ => rfl)
  refine ⟨d', .run ha hb ?_, fun t ht => h'' t ((modelFrom_mem J.size.1 t).mpr ht)⟩
  rw [e1, e2, e3]
  exact (diceLoop_iff J.size.1 J.fits).mpr h'

/-- **C123.** Merging the files of any tiles, in any order: no error; the shell is a cube of one tile's size at the place of the
    base, and it keeps the exposed voxels of the tiles **laid on top of one another**, whatever the map orders and capacities. -/
theorem cut_dice_merge_stacks (hF : NoDistance F) (fl : CutDiceFlags) (bw : BinVOX F) (cuts : List Bytes) (whole : Bytes → BinVOX F)
    {d : Disk} (ts : List Key) (hne : ts ≠ []) (ht : ∀ t ∈ ts, TileHolds d fl bw cuts whole t) (sch : Bytes → AddSched)
    (hsch : ∀ t ∈ ts, ∀ m : BinVOX F, BinVOX.Read (input d (cutOut fl.binvoxPrefix ".binvox" fl.size t)) wholeRegion = some m →
      (sch (cutOut fl.binvoxPrefix ".binvox" fl.size t)).Valid m 0 0 0) :
    ∃ vs : VShell F, VShell.Merge ((ts.map fun t => cutOut fl.binvoxPrefix ".binvox" fl.size t).map fun f =>
        (sch f, BinVOX.Read (F := F) (input d f) wholeRegion)) = some (some vs) ∧
      (vs.NX = fl.size ∧ vs.NY = fl.size ∧ vs.NZ = fl.size) ∧ (vs.TX = bw.TX ∧ vs.TY = bw.TY ∧ vs.TZ = bw.TZ) ∧
      vs.Scale = bw.Scale ∧ KeepsShell (Stacked bw cuts whole fl.size ts) vs.Voxels := by
  have hall : ∀ t, ∃ m : BinVOX F, t ∈ ts → BinVOX.Read (input d (cutOut fl.binvoxPrefix ".binvox" fl.size t)) wholeRegion = some m ∧
      (m.NX = fl.size ∧ m.NY = fl.size ∧ m.NZ = fl.size) ∧ (m.TX = bw.TX ∧ m.TY = bw.TY ∧ m.TZ = bw.TZ) ∧ m.Scale = bw.Scale ∧
      m.ColorVoxels = none ∧
      ∀ l, Vox m l ↔ InDims fl.size fl.size fl.size l ∧ CutLeft bw cuts whole (l.shift t.X t.Y t.Z) := by
    intro t
    by_cases h : t ∈ ts
    · obtain ⟨m, hm⟩ := ht t h
      exact ⟨m, fun _ => hm⟩
    · exact ⟨bw, fun h' => (h h').elim⟩
  choose g hg using hall
  obtain ⟨t0, ts', rfl⟩ := List.exists_cons_of_ne_nil hne
  let pr : Key → AddSched × BinVOX F := fun t => (sch (cutOut fl.binvoxPrefix ".binvox" fl.size t), g t)
  have hh : ∀ f ∈ pr t0 :: ts'.map pr, HeaderOf fl.size fl.size fl.size bw.TX bw.TY bw.TZ bw.Scale f.2 ∧ f.1.Valid f.2 0 0 0 := by
    intro f hf
    rw [← List.map_cons] at hf
    obtain ⟨t, h, rfl⟩ := List.mem_map.mp hf
    obtain ⟨a1, a2, a3, a4, a5, a6⟩ := hg t h
    exact ⟨⟨a2.1, a2.2.1, a2.2.2, a3.1, a3.2.1, a3.2.2, a4, a5, fun l hl => ((a6 l).mp hl).1⟩, hsch t h _ a1⟩
  obtain ⟨vs, h1, h2, h3⟩ := merge_same hF (pr t0) (ts'.map pr) hh
  refine ⟨vs, ?_, ⟨h2.nx, h2.ny, h2.nz⟩, ⟨h2.tx, h2.ty, h2.tz⟩, h2.scale, ?_⟩
  · rw [← h1, ← List.map_cons (f := pr), List.map_map, List.map_map]
    congr 1
    apply List.map_congr_left
    intro t h
    simp only [Function.comp, pr]
    rw [(hg t h).1]
  · have e : (fun k => ∃ f ∈ pr t0 :: ts'.map pr, Vox f.2 k) = Stacked bw cuts whole fl.size (t0 :: ts') := by
      funext k
      apply propext
      rw [← List.map_cons (f := pr)]
      unfold Stacked
      constructor
      · rintro ⟨f, hf, hv⟩
        obtain ⟨t, h, rfl⟩ := List.mem_map.mp hf
        obtain ⟨b1, b2⟩ := ((hg t h).2.2.2.2.2 k).mp hv
        exact ⟨b1, t, h, b2⟩
      · rintro ⟨b1, t, h, b2⟩
        exact ⟨pr t, List.mem_map_of_mem h, ((hg t h).2.2.2.2.2 k).mpr ⟨b1, b2⟩⟩
    rw [← e]
    exact h3

/-- **C123.** So a successful merge-binvox over the tile files writes a shell file of one tile's size at the place of the base. -/
theorem cut_dice_merge_file (hF : NoDistance F) {fl : CutDiceFlags} {bw : BinVOX F} {cuts : List Bytes} {whole : Bytes → BinVOX F}
    {d d' : Disk} {ts : List Key} (hp : fl.binvoxPrefix ≠ []) (hne : ts ≠ []) (ht : ∀ t ∈ ts, TileHolds d fl bw cuts whole t)
    {sch : Bytes → AddSched}
    (hsch : ∀ t ∈ ts, ∀ m : BinVOX F, BinVOX.Read (input d (cutOut fl.binvoxPrefix ".binvox" fl.size t)) wholeRegion = some m →
      (sch (cutOut fl.binvoxPrefix ".binvox" fl.size t)).Valid m 0 0 0) {pre : Bytes} {force : Bool}
    (h : MergeBinvoxRun (F := F) d sch pre force (ts.map fun t => cutOut fl.binvoxPrefix ".binvox" fl.size t) d' .done) :
    ∃ (vs : VShell F) (env : FileEnv) (c : Bytes), vs.Write env wholeRegion = (some c, true) ∧ d' = put d (pre ++ ascii ".vsh") c ∧
      (vs.NX = fl.size ∧ vs.NY = fl.size ∧ vs.NZ = fl.size) ∧ (vs.TX = bw.TX ∧ vs.TY = bw.TY ∧ vs.TZ = bw.TZ) ∧
      vs.Scale = bw.Scale ∧ KeepsShell (Stacked bw cuts whole fl.size ts) vs.Voxels := by
  have hout : ∀ t, cutOut fl.binvoxPrefix ".binvox" fl.size t ≠ pre ++ ascii ".vsh" := by
    intro t e
    rw [cutOut_eq _ _ _ hp] at e
    generalize dashed _ = stem at e
    have h0 := mergeBinvox_never_refuses pre [stem ++ ascii ".binvox"] (by simp)
    have := (mergeInputs_exact (pre ++ ascii ".vsh") false [stem ++ ascii ".binvox"]).1.mpr ⟨by rw [e]; simp, rfl⟩
    rw [h0] at this
    cases this
  obtain ⟨vs, env, c, h1, h2, h3⟩ := merge_binvox_done h
  obtain ⟨vs', g1, g2⟩ := cut_dice_merge_stacks hF fl bw cuts whole ts hne ht sch hsch
  have e : ((ts.map fun t => cutOut fl.binvoxPrefix ".binvox" fl.size t).filter fun f => f ≠ pre ++ ascii ".vsh") =
      ts.map fun t => cutOut fl.binvoxPrefix ".binvox" fl.size t := by
    rw [List.filter_eq_self]
    intro f hf
    obtain ⟨t, _, rfl⟩ := List.mem_map.mp hf
    simpa using hout t
  rw [e, g1] at h1
  injection h1 with h1
  injection h1 with h1
  subst h1
  exact ⟨vs', env, c, h2, h3, g2⟩

omit [GoFloat F] [FloatText F] in
/-- **C123.** What becomes of a voxel left at `k` in the listed tile `t`: beyond the first tile's cube it is not in the shell at its own
    place; the shell has it displaced by `-t`, if it is exposed there, and only once if another tile has a voxel at that place. -/
theorem cut_dice_merge_displaced {size : Int} {bw : BinVOX F} {cuts : List Bytes} {whole : Bytes → BinVOX F} {ts : List Key}
    {l : List VShVoxel} (h : KeepsShell (Stacked bw cuts whole size ts) l) {t k : Key} (ht : t ∈ ts)
    (hk : (t.X ≤ k.X ∧ k.X < t.X + size) ∧ (t.Y ≤ k.Y ∧ k.Y < t.Y + size) ∧ (t.Z ≤ k.Z ∧ k.Z < t.Z + size))
    (hc : CutLeft bw cuts whole k) :
    ((size ≤ k.X ∨ size ≤ k.Y ∨ size ≤ k.Z) → k ∉ l.map VShVoxel.key) ∧
    (Exposed (Stacked bw cuts whole size ts) (k.shift (-t.X) (-t.Y) (-t.Z)) → k.shift (-t.X) (-t.Y) (-t.Z) ∈ l.map VShVoxel.key) := by
  refine ⟨?_, fun he => h.covers _ ⟨?_, t, ht, ?_⟩ he⟩
  · intro ho hm
    obtain ⟨v, hv, rfl⟩ := List.mem_map.mp hm
    obtain ⟨a1, a2, a3, a4, a5, a6⟩ := (h.inside v hv).1
    omega
  · unfold InDims Key.shift
    dsimp only
    omega
  · have : ((k.shift (-t.X) (-t.Y) (-t.Z)).shift t.X t.Y t.Z) = k := by
      obtain ⟨a, b, c⟩ := k
      simp [Key.shift]
    rwa [this]

theorem noDistance_f64 : NoDistance F64 := by
  constructor
  · intro x v
    have e : (GoFloat.mul (GoFloat.sub x x) v : F64).val = 0 := by
      show (F64.of ((F64.of (x.val - x.val)).val * v.val)).val = 0
      rw [F64.of_val, F64.of_val, sub_self, F64.rnd_zero, zero_mul, F64.rnd_zero]
    show (if 0 ≤ (GoFloat.mul (GoFloat.sub x x) v : F64).val then _ else _) = (0 : Int)
    rw [e]
    decide +kernel
  · intro v
    show decide (v.val = v.val) = true
    simp

/-- The job of `exCut_runs` (a bar of three voxels, tiles of one voxel, the first voxel cut away): voxcut-dice can end well; merging the
    files of the last two tiles gives a shell of one voxel: the voxel left at `(2,0,0)` is at `(0,0,0)`. -/
example (float : Bytes → Bool) (lib : GL ℚ) : ∃ (fl : CutDiceFlags) (bw : BinVOX ℚ) (whole : Bytes → BinVOX ℚ) (d' : Disk)
    (sch : Bytes → AddSched) (vs : VShell ℚ),
    CutDiceProc (F := ℚ) float lib exCutDisk [ascii "-size", ascii "1", ascii "-ostl", ascii "o", ascii "--obinvox=o", ascii "b", ascii "c"]
      [] d' .done ∧
    CutLeft bw [ascii "c"] whole ⟨2, 0, 0⟩ ∧
    VShell.Merge (([⟨1, 0, 0⟩, ⟨2, 0, 0⟩].map fun t => cutOut fl.binvoxPrefix ".binvox" fl.size t).map fun f =>
        (sch f, BinVOX.Read (F := ℚ) (input d' f) wholeRegion)) = some (some vs) ∧
    vs.NX = 1 ∧ (⟨2, 0, 0⟩ : Key) ∉ vs.Voxels.map VShVoxel.key ∧ (⟨0, 0, 0⟩ : Key) ∈ vs.Voxels.map VShVoxel.key := by
  obtain ⟨fl, bw, whole, d1, hfl, J, hno, hleft, -, e1, e2, e3⟩ := exCut_runs float lib
  have hfl' : cutDiceFlags [ascii "-size", ascii "1", ascii "-ostl", ascii "o", ascii "--obinvox=o", ascii "b", ascii "c"] =
    some (false, ⟨1, ascii "o", ascii "o", [], [ascii "b", ascii "c"]⟩) := rfl
  have ef : fl = ⟨1, ascii "o", ascii "o", [], [ascii "b", ascii "c"]⟩ := by
    rw [hfl] at hfl'
    injection hfl' with h
    injection h
  have es : fl.size = 1 := by rw [ef]
  have hp : fl.binvoxPrefix ≠ [] := by rw [ef]; decide
  obtain ⟨d', h1, h2⟩ := cut_dice_tiles_hold (float := float) (lib := lib) whiteCancels_rat J hp hfl (by unfold TooSmall; omega) hno
  have tile : ∀ x : Int, x = 1 ∨ x = 2 → TileHolds d' fl bw [ascii "c"] whole ⟨x, 0, 0⟩ := by
    intro x hx
    refine h2 _ ?_ ⟨⟨2, 0, 0⟩, ?_, hleft⟩
    · unfold IsTile InDims
      rw [e1, e2, e3, es]
      simp
      omega
    · unfold InTilePlus
      rw [es]
      dsimp only
      omega
  have hT : ∀ t ∈ ([⟨1, 0, 0⟩, ⟨2, 0, 0⟩] : List Key), TileHolds d' fl bw [ascii "c"] whole t := by
    intro t ht
    simp only [List.mem_cons, List.not_mem_nil, or_false] at ht
    rcases ht with rfl | rfl
    · exact tile 1 (Or.inl rfl)
    · exact tile 2 (Or.inr rfl)
  have hs : ∀ f : Bytes, ∃ s : AddSched, ∀ m : BinVOX ℚ, BinVOX.Read (input d' f) wholeRegion = some m → s.Valid m 0 0 0 := by
    intro f
    cases hr : BinVOX.Read (F := ℚ) (input d' f) wholeRegion with
    | none => exact ⟨⟨[], [], [], 0⟩, fun m hm => by cases hm⟩
    | some m =>
      obtain ⟨s, hs⟩ := schedule_exists m 0 0 0
      exact ⟨s, fun m' hm => by injection hm with hm; rw [← hm]; exact hs⟩
  choose sch hsch using hs
  obtain ⟨vs, g1, g2, -, -, g3⟩ := cut_dice_merge_stacks noDistance_rat fl bw [ascii "c"] whole [⟨1, 0, 0⟩, ⟨2, 0, 0⟩] (by simp) hT sch
    (fun t _ m hm => hsch _ m hm)
  obtain ⟨c1, c2⟩ := cut_dice_merge_displaced g3 (t := ⟨2, 0, 0⟩) (k := ⟨2, 0, 0⟩) (by simp) (by rw [es]; decide) hleft
  refine ⟨fl, bw, whole, d', sch, vs, h1, hleft, g1, by rw [g2.1, es], c1 (by rw [es]; decide), c2 ⟨1, 0, 0, by unfold IsOffset; decide, ?_⟩⟩
  rintro ⟨hh, -⟩
  rw [es] at hh
  revert hh
  unfold InDims
  decide

end Cmd
end StlDice
