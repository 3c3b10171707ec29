import Verif.Props.CutDiceCmd

/-! # C79: running voxcut-dice -/

namespace StlDice
namespace Cmd
open Spec BinVOX
variable {F : Type} [GoFloat F] [FloatText F] {d : Disk} {fl : CutDiceFlags} {base : Bytes} {cuts : List Bytes} {bw : BinVOX F}
  {whole : Bytes → BinVOX F} {lib : GL F} {float : Bytes → Bool}

/-- A voxcut that has a model to write and fails: a file could not be written. -/
def WriteFails (lib : GL F) (d : Disk) (fl : CutFlags) (d' : Disk) : Prop :=
  cutModel (F := F) d fl ≠ none ∧ VoxcutRun (F := F) lib d fl d' .fatal

theorem job_step (J : CutJob d fl base cuts bw whole) {t : Key} (ht : IsTile bw.NX bw.NY bw.NZ fl.size t) {d1 d2 : Disk} {e : Exit} :
    runTile (F := F) float lib fl d1 t d2 e ↔ VoxcutRun (F := F) lib d1 (tileFlags fl t) d2 e := by
  have hp : voxcutFlags float (cutArgs fl t).tail = some (tileFlags fl t) := by
    obtain ⟨⟨a1, a2, a3, a4, a5, a6⟩, _⟩ := ht
    obtain ⟨b1, b2, b3⟩ := J.dims
    obtain ⟨c1, c2⟩ := J.size
    refine cut_args_parsed float fl t ⟨by omega, c2⟩ ⟨by omega, by omega⟩ ⟨by omega, by omega⟩ ⟨by omega, by omega⟩ ?_
    intro f hf
    rw [J.files] at hf
    injection hf with hf
    rw [← hf]
    exact J.name
  unfold runTile
  constructor
  · intro h
    cases h with
    | usage h => rw [voxcutFlags_exit h] at hp; cases hp
    | run h hr =>
      rw [hp] at h
      injection h with h
      rw [h]
      exact hr
  · intro h; exact .run hp h

theorem voxcut_not_panic {fl : CutFlags} {d d' : Disk} (h : VoxcutRun (F := F) lib d fl d' .panic) : False := by
  generalize he : Exit.panic = e at h
  cases h with
  | fatal _ => cases he
  | binvoxFails _ _ => cases he
  | voxFails _ _ _ _ => cases he
  | @last b env m env2 d' ok h h1 hm h2 h3 => cases ok <;> cases he

/-- A tile's files stay complete when other files change. -/
theorem tileDone_congr {d1 d2 : Disk} {t : Key} (h : TileDone lib d1 fl bw cuts whole t)
    (hn : ∀ n ∈ cutOuts fl t, n ≠ [] → d2 n = d1 n) : TileDone lib d2 fl bw cuts whole t := by
  obtain ⟨b, h1, h2, h3, h4, h5⟩ := h
  refine ⟨b, h1, h2, ?_, ?_, ?_⟩
  · intro hp
    obtain ⟨tris, a, b⟩ := h3 hp
    exact ⟨tris, a, by rw [hn _ (by simp [cutOuts]) (cutOut_ne_nil _ _ _ hp)]; exact b⟩
  · intro hp
    obtain ⟨m, a, b⟩ := h4 hp
    exact ⟨m, a, by rw [hn _ (by simp [cutOuts]) (cutOut_ne_nil _ _ _ hp)]; exact b⟩
  · intro hp
    obtain ⟨env, c, a, b, g⟩ := h5 hp
    exact ⟨env, c, a, by rw [hn _ (by simp [cutOuts]) (cutOut_ne_nil _ _ _ hp)]; exact b, g⟩

/-- One tile that ends well. -/
theorem tile_done [LawfulFloatText F] (hF : WhiteCancels F) (J : CutJob d fl base cuts bw whole) {t : Key}
    (ht : IsTile bw.NX bw.NY bw.NZ fl.size t) {d1 d2 : Disk} (hd : ∀ f ∈ fl.files, d1 f = d f)
    (h : VoxcutRun (F := F) lib d1 (tileFlags fl t) d2 .done) :
    TileDone lib d2 fl bw cuts whole t ∧ ¬ NothingLeft bw cuts whole fl.size t := by
  have hs : 0 ≤ fl.size := by have := J.size.1; omega
  obtain ⟨b, hb, h1, h2, h3⟩ := voxcut_done h
  rw [cutModel_congr (d := d) (by intro f hf; exact hd f hf)] at hb
  obtain ⟨g1, g2⟩ := job_model hF J ht hb
  constructor
  · refine ⟨b, g1, g2, ?_, ?_, ?_⟩
    · intro hp
      obtain ⟨tris, a, b⟩ := h1 (cutOut_ne_nil _ _ _ hp)
      exact ⟨tris, a, b⟩
    · intro hp
      refine h2 (cutOut_ne_nil _ _ _ hp) ?_
      intro e
      have e : cutOut fl.voxPrefix ".vox" fl.size t = cutOut fl.stlPrefix ".stl" fl.size t := e
      by_cases hq : fl.stlPrefix = []
      · rw [(cutOut_nil_iff _ _ _ _).mpr hq, cutOut_nil_iff] at e
        exact hp e
      · exact stl_ne_vox hs hq hp e.symm
    · intro hp
      obtain ⟨env, c, a, b'⟩ := h3 (cutOut_ne_nil _ _ _ hp) (by
        intro e
        have e : cutOut fl.binvoxPrefix ".binvox" fl.size t = cutOut fl.stlPrefix ".stl" fl.size t := e
        by_cases hq : fl.stlPrefix = []
        · rw [(cutOut_nil_iff _ _ _ _).mpr hq, cutOut_nil_iff] at e
          exact hp e
        · exact stl_ne_binvox hs hq hp e.symm) (by
        intro e
        have e : cutOut fl.binvoxPrefix ".binvox" fl.size t = cutOut fl.voxPrefix ".vox" fl.size t := e
        by_cases hq : fl.voxPrefix = []
        · rw [(cutOut_nil_iff _ _ _ _).mpr hq, cutOut_nil_iff] at e
          exact hp e
        · exact vox_ne_binvox hs hq hp e.symm)
      refine ⟨env, c, a, b', ?_⟩
      intro hg
      have e := write_good_region b (tileFlags fl t).region hg
      have e' : (some c, true) = (some (b.write ⟨[], []⟩ (tileFlags fl t).region).1.out, true) := a.symm.trans e
      injection e' with e' _
      injection e' with e'
      rw [e']
      exact job_binvox hF J ht hb
  · intro hn
    rw [(job_none_iff hF J ht).mpr hn] at hb
    cases hb

/-- What one tile changes. -/
theorem tile_touches (J : CutJob d fl base cuts bw whole) {t : Key} {d1 d2 : Disk} {e : Exit}
    (h : VoxcutRun (F := F) lib d1 (tileFlags fl t) d2 e) {n : Bytes} (hn : n ∉ cutOuts fl t) : d2 n = d1 n := by
  unfold cutOuts at hn
  simp only [List.mem_cons, List.not_mem_nil, or_false, not_or] at hn
  exact (voxcut_touches h).1 n hn.1 hn.2.2 hn.2.1

theorem before_ne {u t : Key} (h : Before u t) : u ≠ t := by
  rintro rfl
  unfold Before at h
  omega

/-- The commands of a list of tiles. -/
theorem runList_outputs [LawfulFloatText F] (hF : WhiteCancels F) (J : CutJob d fl base cuts bw whole) {ts : List Key} {d1 d' : Disk} {e : Exit}
    (h : RunList (runTile (F := F) float lib fl) ts d1 d' e) (hts : ∀ t ∈ ts, IsTile bw.NX bw.NY bw.NZ fl.size t)
    (hsort : ts.Pairwise Before) (hd : ∀ f ∈ fl.files, d1 f = d f) :
    (∀ n, (∀ t ∈ ts, n ∉ cutOuts fl t) → d' n = d1 n) ∧
    ((e = .done ∧ ∀ t ∈ ts, TileDone lib d' fl bw cuts whole t ∧ ¬ NothingLeft bw cuts whole fl.size t) ∨
      (e = .fatal ∧ ∃ pre t post, ts = pre ++ t :: post ∧
        (∀ u ∈ pre, TileDone lib d' fl bw cuts whole u ∧ ¬ NothingLeft bw cuts whole fl.size u) ∧
        (∀ u ∈ post, ∀ n ∈ cutOuts fl u, n ≠ [] → d' n = d1 n) ∧
        ((NothingLeft bw cuts whole fl.size t ∧ ∀ n ∈ cutOuts fl t, n ≠ [] → d' n = d1 n) ∨
          ∃ d2, WriteFails (F := F) lib d2 (tileFlags fl t) d'))) := by
  have hs0 : 0 ≤ fl.size := by have := J.size.1; omega
  induction h with
  | nil => exact ⟨fun _ _ => rfl, Or.inl ⟨rfl, fun t ht => (List.not_mem_nil ht).elim⟩⟩
  | @fails t ts d1 d2 e hs he =>
    have htile := hts t (by simp)
    have hrun := (job_step J htile).mp hs
    have htouch := fun n (hn : n ∉ cutOuts fl t) => tile_touches J hrun hn
    refine ⟨fun n hn => htouch n (hn t (by simp)), Or.inr ⟨rfl, [], t, ts, rfl, fun u hu => (List.not_mem_nil hu).elim, ?_, ?_⟩⟩
    · intro u hu n hn hne
      refine htouch n ?_
      rw [List.pairwise_cons] at hsort
      exact cutOuts_disjoint hs0 (tile_nonneg (hts u (by simp [hu]))) (tile_nonneg htile)
        (fun h => before_ne (hsort.1 u hu) h.symm) hne hn
    · by_cases hn : cutModel (F := F) d1 (tileFlags fl t) = none
      · left
        obtain ⟨e1, _⟩ := (voxcut_touches hrun).2 hn
        refine ⟨?_, fun n _ _ => by rw [e1]⟩
        rw [cutModel_congr (d := d) (by intro f hf; exact hd f hf)] at hn
        exact (job_none_iff hF J htile).mp hn
      · right
        refine ⟨d1, hn, ?_⟩
        cases e with
        | done => exact absurd rfl he
        | fatal => exact hrun
        | panic => exact (voxcut_not_panic hrun).elim
  | @cons t ts d1 d2 d3 e hs h ih =>
    have htile := hts t (by simp)
    have hrun := (job_step J htile).mp hs
    have htouch := fun n (hn : n ∉ cutOuts fl t) => tile_touches J hrun hn
    rw [List.pairwise_cons] at hsort
    obtain ⟨i1, i2⟩ := ih (fun u hu => hts u (by simp [hu])) hsort.2 (by
      intro f hf
      rw [htouch f (J.noClash f hf t htile)]
      exact hd f hf)
    obtain ⟨t1, t2⟩ := tile_done hF J htile hd hrun
    have hkeep : ∀ n ∈ cutOuts fl t, n ≠ [] → d3 n = d2 n := by
      intro n hn hne
      refine i1 n fun u hu => ?_
      exact cutOuts_disjoint hs0 (tile_nonneg htile) (tile_nonneg (hts u (by simp [hu]))) (before_ne (hsort.1 u hu)) hne hn
    have hother : ∀ u ∈ ts, ∀ n ∈ cutOuts fl u, n ≠ [] → d2 n = d1 n := by
      intro u hu n hn hne
      refine htouch n ?_
      exact cutOuts_disjoint hs0 (tile_nonneg (hts u (by simp [hu]))) (tile_nonneg htile)
        (fun h => before_ne (hsort.1 u hu) h.symm) hne hn
    have tdone : TileDone lib d3 fl bw cuts whole t := tileDone_congr t1 hkeep
    constructor
    · intro n hn
      rw [i1 n fun u hu => hn u (by simp [hu]), htouch n (hn t (by simp))]
    · rcases i2 with ⟨rfl, i2⟩ | ⟨rfl, pre, x, post, rfl, j1, j2, j3⟩
      · left
        refine ⟨rfl, fun u hu => ?_⟩
        rcases List.mem_cons.mp hu with rfl | hu
        · exact ⟨tdone, t2⟩
        · exact i2 u hu
      · right
        refine ⟨rfl, t :: pre, x, post, rfl, ?_, ?_, ?_⟩
        · intro u hu
          rcases List.mem_cons.mp hu with rfl | hu
          · exact ⟨tdone, t2⟩
          · exact j1 u hu
        · intro u hu n hn hne
          rw [j2 u hu n hn hne, hother u (by simp [hu]) n hn hne]
        · rcases j3 with ⟨j3, j4⟩ | j3
          · left
            refine ⟨j3, fun n hn hne => ?_⟩
            rw [j4 n hn hne, hother x (by simp) n hn hne]
          · exact Or.inr j3

/-- Whether the model is smaller than a tile in every direction. -/
def TooSmall (bw : BinVOX F) (size : Int) : Prop := bw.NX < size ∧ bw.NY < size ∧ bw.NZ < size

/-- What `main` does before the loops on a job as it is meant. -/
theorem job_base (J : CutJob d fl base cuts bw whole) :
    (TooSmall bw fl.size → cutDiceBase (F := F) d fl = none) ∧
    (¬ TooSmall bw fl.size → ∃ b, cutDiceBase (F := F) d fl = some b ∧ b.NX = bw.NX ∧ b.NY = bw.NY ∧ b.NZ = bw.NZ) := by
  obtain ⟨inp, hi, hr⟩ := holds_input J.holds
  obtain ⟨-, hx, hy, hz⟩ := J.holds
  have key : ∃ b, BinVOX.Read (F := F) (input d base) ⟨0, 0, 0, 1, 1, 1⟩ = some b ∧ b.NX = bw.NX ∧ b.NY = bw.NY ∧ b.NZ = bw.NZ := by
    rw [hi]
    rcases read_region_cases inp ⟨0, 0, 0, 1, 1, 1⟩ bw hr (by decide) hx hy hz with ⟨_, b, hb, _, hh, _⟩ | ⟨hout, _⟩
    · exact ⟨b, hb, hh.1, hh.2.1, hh.2.2.1⟩
    · exfalso; apply hout; dsimp only; omega
  obtain ⟨b, hb, e1, e2, e3⟩ := key
  have : cutDiceBase (F := F) d fl = if fl.size > b.NX ∧ fl.size > b.NY ∧ fl.size > b.NZ then none else some b := by
    unfold cutDiceBase
    rw [J.files]
    dsimp only
    rw [if_neg J.outs, hb]
  rw [this, e1, e2, e3]
  unfold TooSmall
  constructor
  · rintro ⟨h1, h2, h3⟩
    exact if_pos ⟨h1, h2, h3⟩
  · intro h
    exact ⟨b, if_neg (fun hh => h ⟨hh.1, hh.2.1, hh.2.2⟩), e1, e2, e3⟩

/-- **C79.** A run of voxcut-dice that is not a dry run changes no file but the outputs of the tiles.  If it
    ends well, the files of every tile are complete, and in every tile something was left.  If not, then
    either the model is smaller than a tile and nothing changed, or there is a tile such that the files of all
    tiles before it (in the order z, y, x) are complete, no file of a tile after it changed, and nothing was
    left in the tile (and its files did not change) or one of its files could not be written. -/
theorem cut_dice_outputs [LawfulFloatText F] (hF : WhiteCancels F) (J : CutJob d fl base cuts bw whole) {args : List Bytes} {out : Bytes}
    {d' : Disk} {e : Exit} (ha : cutDiceFlags args = some (false, fl)) (h : CutDiceProc (F := F) float lib d args out d' e) :
    out = [] ∧
    (∀ n, (∀ t, IsTile bw.NX bw.NY bw.NZ fl.size t → n ∉ cutOuts fl t) → d' n = d n) ∧
    ((e = .done ∧ ∀ t, IsTile bw.NX bw.NY bw.NZ fl.size t →
        TileDone lib d' fl bw cuts whole t ∧ ¬ NothingLeft bw cuts whole fl.size t) ∨
      (e = .fatal ∧ TooSmall bw fl.size ∧ d' = d) ∨
      (e = .fatal ∧ ∃ t, IsTile bw.NX bw.NY bw.NZ fl.size t ∧
        (∀ u, IsTile bw.NX bw.NY bw.NZ fl.size u → Before u t → TileDone lib d' fl bw cuts whole u ∧ ¬ NothingLeft bw cuts whole fl.size u) ∧
        (∀ u, IsTile bw.NX bw.NY bw.NZ fl.size u → Before t u → ∀ n ∈ cutOuts fl u, n ≠ [] → d' n = d n) ∧
        ((NothingLeft bw cuts whole fl.size t ∧ ∀ n ∈ cutOuts fl t, n ≠ [] → d' n = d n) ∨
          ∃ d2, WriteFails (F := F) lib d2 (tileFlags fl t) d'))) := by
  obtain ⟨b1, b2⟩ := job_base (F := F) J
  cases h with
  | usage h => rw [cutDiceFlags_exit h] at ha; cases ha
  | refused h hb =>
    rw [ha] at h
    injection h with h
    injection h with _ h
    subst h
    refine ⟨rfl, fun _ _ => rfl, Or.inr (Or.inl ⟨rfl, ?_, rfl⟩)⟩
    by_contra hc
    obtain ⟨b, hb', _⟩ := b2 hc
    rw [hb] at hb'
    cases hb'
  | dry h hb ht =>
    rw [ha] at h
    injection h with h
    injection h with h _
    cases h
  | @run fl' b d' e h hb hl =>
    rw [ha] at h
    injection h with h
    injection h with _ h
    subst h
    have hsm : ¬ TooSmall bw fl.size := by
      intro hc
      rw [b1 hc] at hb
      cases hb
    obtain ⟨b', hb', e1, e2, e3⟩ := b2 hsm
    rw [hb] at hb'
    injection hb' with hb'
    rw [← hb'] at e1 e2 e3
    rw [e1, e2, e3] at hl
    rw [diceLoop_iff J.size.1 J.fits] at hl
    have hsort := modelFrom_sorted (nx := bw.NX) (ny := bw.NY) (nz := bw.NZ) J.size.1
    obtain ⟨g1, g2⟩ := runList_outputs hF J hl (fun t ht => (modelFrom_mem J.size.1 t).mp ht) hsort (fun _ _ => rfl)
    refine ⟨rfl, fun n hn => g1 n fun t ht => hn t ((modelFrom_mem J.size.1 t).mp ht), ?_⟩
    rcases g2 with ⟨rfl, g2⟩ | ⟨rfl, pre, t, post, hts, g2, g3, g4⟩
    · exact Or.inl ⟨rfl, fun t ht => g2 t ((modelFrom_mem J.size.1 t).mpr ht)⟩
    · right; right
      have mem : ∀ u, IsTile bw.NX bw.NY bw.NZ fl.size u → u ∈ pre ++ t :: post := by
        intro u hu; rw [← hts]; exact (modelFrom_mem J.size.1 u).mpr hu
      rw [hts, List.pairwise_append, List.pairwise_cons] at hsort
      obtain ⟨-, ⟨s2, -⟩, s3⟩ := hsort
      refine ⟨rfl, t, (modelFrom_mem J.size.1 t).mp (by rw [hts]; simp), ?_, ?_, g4⟩
      · intro u hu hbt
        have := mem u hu
        rw [List.mem_append, List.mem_cons] at this
        rcases this with h | rfl | h
        · exact g2 u h
        · exact (before_ne hbt rfl).elim
        · exfalso
          have := s2 u h
          unfold Before at this hbt
          omega
      · intro u hu hbt
        have := mem u hu
        rw [List.mem_append, List.mem_cons] at this
        rcases this with h | rfl | h
        · exfalso
          have := s3 u h t (by simp)
          unfold Before at this hbt
          omega
        · exact (before_ne hbt rfl).elim
        · exact g3 u h

/-- A voxcut whose files can all be written ends well if it has a model. -/
theorem voxcut_good {fl : CutFlags} {d : Disk} {b : BinVOX F} (hman : fl.manifold = false) (h : cutModel (F := F) d fl = some b) :
    ∃ d', VoxcutRun (F := F) lib d fl d' .done := by
  have h1 : (outBinvox fl b ⟨true, [], true⟩ d).2 = true := by
    unfold outBinvox
    split
    · rfl
    · exact (write_reports_iff _ _ _).mpr ⟨rfl, rfl, Or.inr (by simp)⟩
  have h2 : (outVox fl b.white ⟨true, [], true⟩ (outBinvox fl b ⟨true, [], true⟩ d).1).2 = true := by
    unfold outVox
    split
    · rfl
    · rw [if_neg (by decide)]
      dsimp only
      rw [(writeVOX_reports_iff ⟨[], []⟩ _).mpr (by intro i _ k; simp)]
      rfl
  by_cases ho : fl.ostl = []
  · exact ⟨_, .last (ok := true) h h1 (List.Perm.refl _) h2 (.none ho)⟩
  · exact ⟨_, .last (ok := true) h h1 (List.Perm.refl _) h2 (.cubes ho hman ⟨_, _, List.Perm.refl _, List.Perm.refl _, rfl⟩ .ok)⟩

/-- **C79 (success).** On a job as it is meant, if something is left in every tile and every file can be
    written, voxcut-dice can end well. -/
theorem cut_dice_succeeds [LawfulFloatText F] (hF : WhiteCancels F) (J : CutJob d fl base cuts bw whole) {args : List Bytes}
    (ha : cutDiceFlags args = some (false, fl)) (hsm : ¬ TooSmall bw fl.size)
    (hl : ∀ t, IsTile bw.NX bw.NY bw.NZ fl.size t → ¬ NothingLeft bw cuts whole fl.size t) :
    ∃ d', CutDiceProc (F := F) float lib d args [] d' .done := by
  obtain ⟨b, hb, e1, e2, e3⟩ := (job_base (F := F) J).2 hsm
  have key : ∀ (ts : List Key) (d1 : Disk), (∀ t ∈ ts, IsTile bw.NX bw.NY bw.NZ fl.size t) → (∀ f ∈ fl.files, d1 f = d f) →
      ∃ d', RunList (runTile (F := F) float lib fl) ts d1 d' .done := by
    intro ts
    induction ts with
    | nil => intro d1 _ _; exact ⟨d1, .nil⟩
    | cons t ts ih =>
      intro d1 hts hd
      have ht := hts t (by simp)
      have hne : cutModel (F := F) d1 (tileFlags fl t) ≠ none := by
        rw [cutModel_congr (d := d) (by intro f hf; exact hd f hf)]
        intro h
        exact hl t ht ((job_none_iff hF J ht).mp h)
      obtain ⟨m, hm⟩ := Option.ne_none_iff_exists'.mp hne
      obtain ⟨d2, h2⟩ := voxcut_good (lib := lib) (by rfl) hm
      obtain ⟨d3, h3⟩ := ih d2 (fun u hu => hts u (by simp [hu])) (by
        intro f hf
        rw [tile_touches J h2 (J.noClash f hf t ht)]
        exact hd f hf)
      exact ⟨d3, .cons ((job_step J ht).mpr h2) h3⟩
  obtain ⟨d', h'⟩ := key (modelFrom bw.NX bw.NY bw.NZ fl.size 0) d (fun t ht => (modelFrom_mem J.size.1 t).mp ht) (fun _ _ => rfl)
  refine ⟨d', .run ha hb ?_⟩
  rw [e1, e2, e3]
  exact (diceLoop_iff J.size.1 J.fits).mpr h'

/-- **C79 (dry run).** A dry run changes nothing and prints a script; if no name has blanks or newlines in
    it, the words of its lines after the first are the commands that the run proper executes, in its order. -/
theorem cut_dice_dry (J : CutJob d fl base cuts bw whole) {args : List Bytes} {out : Bytes}
    {d' : Disk} {e : Exit} (ha : cutDiceFlags args = some (true, fl)) (h : CutDiceProc (F := F) float lib d args out d' e)
    (hsm : ¬ TooSmall bw fl.size) :
    d' = d ∧ e = .done ∧ ∃ ts : List Key, (∀ t, t ∈ ts ↔ IsTile bw.NX bw.NY bw.NZ fl.size t) ∧ ts.Pairwise Before ∧
      out = line [ascii "#!/bin/bash", ascii "-x"] ++ ts.flatMap fun t => line (cutArgs fl t) := by
  obtain ⟨b', hb', e1, e2, e3⟩ := (job_base (F := F) J).2 hsm
  cases h with
  | usage h => rw [cutDiceFlags_exit h] at ha; cases ha
  | refused h hb =>
    rw [ha] at h
    injection h with h
    injection h with _ h
    subst h
    rw [hb] at hb'
    cases hb'
  | @dry fl' b fuel ts h hb ht =>
    rw [ha] at h
    injection h with h
    injection h with _ h
    subst h
    rw [hb] at hb'
    injection hb' with hb'
    rw [← hb'] at e1 e2 e3
    rw [e1, e2, e3] at ht
    rw [diceStarts_modelFrom J.size.1 J.fits ht]
    refine ⟨rfl, rfl, _, modelFrom_mem J.size.1, modelFrom_sorted J.size.1, ?_⟩
    have e : ∀ l : List Bytes, joinSp l = (l.intersperse [32]).flatten := by
      intro l
      induction l with
      | nil => rfl
      | cons a l ih =>
        cases l with
        | nil => simp [joinSp]
        | cons b l =>
          rw [joinSp, List.intersperse_cons_cons, List.flatten_cons, List.flatten_cons, ih]
          simp
    congr 1
    unfold dryLine line
    simp only [e]
    rfl
  | run h hb hl =>
    rw [ha] at h
    injection h with h
    injection h with h _
    cases h

/-- A model of 3x1x1 voxels, all but the first set. -/
def exCutBase : BinVOX ℚ := ⟨3, 1, 1, 0, 0, 0, 3, some [(⟨1, 0, 0⟩, ()), (⟨2, 0, 0⟩, ())], none⟩

/-- The files `b` and `c`: the model above and one of its size with only the first voxel set. -/
def exCutDisk : Disk := put (put (fun _ => none) (ascii "b") (exDiceFile exCutBase).bytes) (ascii "c") (exDiceFile exDiceCut).bytes

/-- The hypotheses are met: `voxcut-dice -size 1 -ostl o -obinvox o b c` on these files is a job as it is
    meant in which something is left in every tile; it can end well. -/
theorem exCut_runs (float : Bytes → Bool) (lib : GL ℚ) : ∃ (fl : CutDiceFlags) (bw : BinVOX ℚ) (whole : Bytes → BinVOX ℚ) (d' : Disk),
    cutDiceFlags [ascii "-size", ascii "1", ascii "-ostl", ascii "o", ascii "--obinvox=o", ascii "b", ascii "c"] = some (false, fl) ∧
    CutJob exCutDisk fl (ascii "b") [ascii "c"] bw whole ∧
    (∀ t, IsTile bw.NX bw.NY bw.NZ fl.size t → ¬ NothingLeft bw [ascii "c"] whole fl.size t) ∧
    CutLeft bw [ascii "c"] whole ⟨2, 0, 0⟩ ∧
    CutDiceProc (F := ℚ) float lib exCutDisk [ascii "-size", ascii "1", ascii "-ostl", ascii "o", ascii "--obinvox=o", ascii "b", ascii "c"]
      [] d' .done ∧ bw.NX = 3 ∧ bw.NY = 1 ∧ bw.NZ = 1 := by
  have hfl : cutDiceFlags [ascii "-size", ascii "1", ascii "-ostl", ascii "o", ascii "--obinvox=o", ascii "b", ascii "c"] =
    some (false, ⟨1, ascii "o", ascii "o", [], [ascii "b", ascii "c"]⟩) := rfl
  obtain ⟨bw, r1, x1, y1, z1, _, _, _, _, _, _, v1⟩ := write_region_read exCutBase (by decide) wholeRegion
    (by decide) (by decide) (by decide)
  obtain ⟨bc, r2, x2, y2, z2, _, _, _, _, _, _, v2⟩ := write_region_read exDiceCut (by decide) wholeRegion
    (by decide) (by decide) (by decide)
  have x1 : bw.NX = 3 := x1
  have y1 : bw.NY = 1 := y1
  have z1 : bw.NZ = 1 := z1
  have x2 : bc.NX = 3 := x2
  have y2 : bc.NY = 1 := y2
  have z2 : bc.NZ = 1 := z2
  have h1 : Holds exCutDisk (ascii "b") bw := by
    refine ⟨?_, by omega, by omega, by omega⟩
    have e : exCutDisk (ascii "b") = some (exDiceFile exCutBase).bytes := by
      unfold exCutDisk
      rw [put_other _ _ (by decide), put_self]
    unfold input
    rw [e]
    exact r1
  have h2 : Holds exCutDisk (ascii "c") bc := by
    refine ⟨?_, by omega, by omega, by omega⟩
    have e : exCutDisk (ascii "c") = some (exDiceFile exDiceCut).bytes := by
      unfold exCutDisk
      rw [put_self]
    unfold input
    rw [e]
    exact r2
  have left : ∀ x : Int, x = 1 ∨ x = 2 → CutLeft bw [ascii "c"] (fun _ => bc) ⟨x, 0, 0⟩ := by
    intro x hx
    refine ⟨(v1 _).mpr ⟨?_, ?_⟩, fun c _ => ?_⟩
    · rcases hx with rfl | rfl <;> (unfold InDims; decide)
    · rcases hx with rfl | rfl <;> (unfold Vox; decide)
    · rw [v2]
      rintro ⟨_, h⟩
      revert h
      rcases hx with rfl | rfl <;> (unfold Vox; decide)
  have J : CutJob exCutDisk ⟨1, ascii "o", ascii "o", [], [ascii "b", ascii "c"]⟩ (ascii "b") [ascii "c"] bw (fun _ => bc) := by
    refine ⟨rfl, h1, ?_, ?_, by decide, ?_, by decide, Or.inl (by decide), ?_⟩
    · intro c hc
      rw [List.mem_singleton] at hc
      rw [hc]
      exact h2
    · rw [x1, y1, z1]; decide
    · rw [x1, y1, z1]; exact tilesFit_of_le (by decide) (by decide) (by decide)
    · intro f hf t ht hm
      have hlen : f.length = 1 := by
        simp only [List.mem_cons, List.not_mem_nil, or_false] at hf
        rcases hf with rfl | rfl <;> rfl
      unfold cutOuts at hm
      simp only [List.mem_cons, List.not_mem_nil, or_false] at hm
      have long : ∀ (e : String), (ascii e).length = 4 ∨ (ascii e).length = 7 → f ≠ cutOut (ascii "o") e 1 t := by
        intro e he h
        obtain ⟨body, dg, _, e2⟩ := cutOut_last (pre := ascii "o") e 1 t (by decide) (by decide)
        rw [h, e2] at hlen
        rw [List.length_append, List.length_cons] at hlen
        omega
      rcases hm with hm | hm | hm
      · exact long ".binvox" (Or.inr (by decide)) hm
      · exact long ".stl" (Or.inl (by decide)) hm
      · rw [(cutOut_nil_iff _ _ _ _).mpr rfl] at hm
        rw [hm] at hlen
        cases hlen
  have hno : ∀ t, IsTile bw.NX bw.NY bw.NZ 1 t → ¬ NothingLeft bw [ascii "c"] (fun _ => bc) 1 t := by
    rintro ⟨X, Y, Z⟩ ht ⟨_, hn⟩
    obtain ⟨⟨a1, a2, a3, a4, a5, a6⟩, _⟩ := ht
    dsimp only at a1 a2 a3 a4 a5 a6
    rw [x1] at a2
    rw [y1] at a4
    rw [z1] at a6
    have : X = 0 ∨ X = 1 ∨ X = 2 := by omega
    have hk : ∃ x : Int, (x = 1 ∨ x = 2) ∧ X ≤ x ∧ x ≤ X + 1 := by
      rcases this with rfl | rfl | rfl
      · exact ⟨1, by decide⟩
      · exact ⟨1, by decide⟩
      · exact ⟨2, by decide⟩
    obtain ⟨x, hx, b1, b2⟩ := hk
    refine hn ⟨x, 0, 0⟩ ⟨⟨b1, b2⟩, ?_, ?_⟩ (left x hx)
    · dsimp only; omega
    · dsimp only; omega
  have hsm : ¬ TooSmall bw 1 := by
    unfold TooSmall
    omega
  obtain ⟨d', h⟩ := cut_dice_succeeds (float := float) (lib := lib) whiteCancels_rat J hfl hsm hno
  exact ⟨_, bw, fun _ => bc, d', hfl, J, hno, left 2 (Or.inr rfl), h, x1, y1, z1⟩

/-- `cut_dice_outputs` on this run, and `cut_dice_dry` with the flag `-n`. -/
example (float : Bytes → Bool) (lib : GL ℚ) : ∃ (fl : CutDiceFlags) (bw : BinVOX ℚ) (whole : Bytes → BinVOX ℚ) (d' : Disk),
    (∀ t, IsTile bw.NX bw.NY bw.NZ fl.size t → TileDone lib d' fl bw [ascii "c"] whole t) ∧ IsTile bw.NX bw.NY bw.NZ fl.size ⟨1, 0, 0⟩ ∧
    ∃ out d2 e, CutDiceProc (F := ℚ) float lib exCutDisk [ascii "-n", ascii "-size", ascii "1", ascii "-ostl", ascii "o", ascii "--obinvox=o",
      ascii "b", ascii "c"] out d2 e ∧ d2 = exCutDisk ∧ e = .done := by
  obtain ⟨fl, bw, whole, d', hfl, J, hno, -, h, e1, e2, e3⟩ := exCut_runs float lib
  have hfl' : cutDiceFlags [ascii "-n", ascii "-size", ascii "1", ascii "-ostl", ascii "o", ascii "--obinvox=o", ascii "b", ascii "c"] =
      some (true, fl) := by
    have : cutDiceFlags [ascii "-size", ascii "1", ascii "-ostl", ascii "o", ascii "--obinvox=o", ascii "b", ascii "c"] =
      some (false, ⟨1, ascii "o", ascii "o", [], [ascii "b", ascii "c"]⟩) := rfl
    rw [hfl] at this
    injection this with this
    injection this with _ this
    rw [this]
    rfl
  have hsz : fl.size = 1 := by
    have : cutDiceFlags [ascii "-size", ascii "1", ascii "-ostl", ascii "o", ascii "--obinvox=o", ascii "b", ascii "c"] =
      some (false, ⟨1, ascii "o", ascii "o", [], [ascii "b", ascii "c"]⟩) := rfl
    rw [hfl] at this
    injection this with this
    injection this with _ this
    rw [this]
  have ht : IsTile bw.NX bw.NY bw.NZ fl.size ⟨1, 0, 0⟩ := by
    rw [e1, e2, e3, hsz]
    unfold IsTile InDims
    decide
  have hsm : ¬ TooSmall bw fl.size := by
    unfold TooSmall
    omega
  have ex := (cut_dice_outputs whiteCancels_rat J hfl h).2.2
  have hd : ∀ t, IsTile bw.NX bw.NY bw.NZ fl.size t → TileDone lib d' fl bw [ascii "c"] whole t := by
    rcases ex with ⟨-, ex⟩ | ⟨h1, -⟩ | ⟨h1, -⟩
    · exact fun t ht => (ex t ht).1
    · cases h1
    · cases h1
  obtain ⟨b, hb, b1, b2, b3⟩ := (job_base (F := ℚ) J).2 hsm
  have hts : diceStarts 20 b.NX b.NY b.NZ fl.size = some [⟨0, 0, 0⟩, ⟨1, 0, 0⟩, ⟨2, 0, 0⟩] := by
    rw [b1, b2, b3, e1, e2, e3, hsz]
    decide
  have hp : CutDiceProc (F := ℚ) float lib exCutDisk _ _ _ .done := .dry hfl' hb hts
  exact ⟨fl, bw, whole, d', hd, ht, _, _, _, hp, (cut_dice_dry J hfl' hp hsm).1, rfl⟩

end Cmd
end StlDice
