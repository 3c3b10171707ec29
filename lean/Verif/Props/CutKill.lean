import Verif.Model.CutKill
import Verif.Props.CutDiceRun

/-! # C129: voxcut, voxcut-dice, manifold-mesh and marching-cubes killed and run again -/

namespace StlDice
namespace Cmd
open Spec BinVOX
variable {F : Type} [GoFloat F] [FloatText F] {lib : GL F} {float : Bytes → Bool}

/-! ## voxcut -/

theorem killed_other {d d' : Disk} {fl : CutFlags} (h : VoxcutKilled (F := F) lib d fl d') {n : Bytes}
    (hn : n = [] ∨ n ∉ [fl.obinvox, fl.ovox, fl.ostl]) : d' n = d n := by
  have hn' : ∀ o, o ≠ [] → o ∈ [fl.obinvox, fl.ovox, fl.ostl] → n ≠ o := by
    rintro o h0 ho rfl
    rcases hn with h | h
    · exact h0 h
    · exact h ho
  have hb : fl.obinvox = [] ∨ n ≠ fl.obinvox := by
    by_cases h0 : fl.obinvox = []
    · exact Or.inl h0
    · exact Or.inr (hn' _ h0 (by simp))
  have hv : fl.ovox = [] ∨ n ≠ fl.ovox := by
    by_cases h0 : fl.ovox = []
    · exact Or.inl h0
    · exact Or.inr (hn' _ h0 (by simp))
  cases h with
  | early => rfl
  | binvox h h0 hp => exact put_other _ _ (hn' _ h0 (by simp))
  | vox h h1 h0 hm hp => rw [put_other _ _ (hn' _ h0 (by simp)), outBinvox_other _ _ _ _ hb]
  | stl h h1 hm h2 h0 ht hp =>
    rw [put_other _ _ (hn' _ h0 (by simp)), outVox_other _ _ _ _ hv, outBinvox_other _ _ _ _ hb]

theorem run_other {d d' : Disk} {fl : CutFlags} {e : Exit} (h : VoxcutRun (F := F) lib d fl d' e) {n : Bytes}
    (hn : n = [] ∨ n ∉ [fl.obinvox, fl.ovox, fl.ostl]) : d' n = d n := by
  have hn' : ∀ o, o ∈ [fl.obinvox, fl.ovox, fl.ostl] → o = [] ∨ n ≠ o := by
    intro o ho
    by_cases h0 : o = []
    · exact Or.inl h0
    · right
      rintro rfl
      rcases hn with h | h
      · exact h0 h
      · exact h ho
  have hb := hn' fl.obinvox (by simp)
  have hv := hn' fl.ovox (by simp)
  have hs := hn' fl.ostl (by simp)
  cases h with
  | fatal _ => rfl
  | binvoxFails h h1 => exact outBinvox_other _ _ _ _ hb
  | voxFails h h1 hm h2 => exact (outVox_other _ _ _ _ hv).trans (outBinvox_other _ _ _ _ hb)
  | last h h1 hm h2 h3 => exact (outStl_other h3 hs).trans ((outVox_other _ _ _ _ hv).trans (outBinvox_other _ _ _ _ hb))

/-- **C129.** However often voxcut was started before, and however each start ended, no file but the outputs changed. -/
theorem voxcut_tries_others {d d₁ : Disk} {fl : CutFlags} (h : VoxcutTries (F := F) lib fl d d₁) {n : Bytes}
    (hn : n = [] ∨ n ∉ [fl.obinvox, fl.ovox, fl.ostl]) : d₁ n = d n := by
  induction h with
  | none => rfl
  | ran _ h ih => exact (run_other h hn).trans ih
  | killed _ h ih => exact (killed_other h hn).trans ih

theorem outBinvox_move {fl : CutFlags} {b : BinVOX F} {env : FileEnv} {d d₁ : Disk} (h : (outBinvox fl b env d₁).2 = true) :
    (outBinvox fl b env d).2 = true ∧
      ∀ n, (d n = d₁ n ∨ (n ≠ [] ∧ n = fl.obinvox)) → (outBinvox fl b env d).1 n = (outBinvox fl b env d₁).1 n := by
  unfold outBinvox at h ⊢
  by_cases h0 : fl.obinvox = []
  · simp only [if_pos h0]
    refine ⟨trivial, fun n hn => ?_⟩
    rcases hn with h | ⟨h1, h2⟩
    · exact h
    · exact absurd (h2.trans h0) h1
  · simp only [if_neg h0] at h ⊢
    refine ⟨h, fun n hn => ?_⟩
    cases hw : (b.Write env fl.region).1 with
    | none =>
      exfalso
      have hc : env.createOk = true := ((write_reports_iff _ _ _).mp h).1
      unfold BinVOX.Write at hw
      rw [hc] at hw
      simp only [Bool.not_true, Bool.false_eq_true, if_false] at hw
      split at hw <;> cases hw
    | some c =>
      dsimp only
      unfold put
      split
      · rfl
      · rename_i hne
        exact hn.resolve_right fun h => hne h.2

theorem outVox_move {fl : CutFlags} {m : WhiteVoxelMap} {env : FileEnv} {d d₁ : Disk} (h : (outVox fl m env d₁).2 = true) :
    (outVox fl m env d).2 = true ∧
      ∀ n, (d n = d₁ n ∨ (n ≠ [] ∧ n = fl.ovox)) → (outVox fl m env d).1 n = (outVox fl m env d₁).1 n := by
  unfold outVox at h ⊢
  by_cases h0 : fl.ovox = []
  · simp only [if_pos h0]
    refine ⟨trivial, fun n hn => ?_⟩
    rcases hn with h | ⟨h1, h2⟩
    · exact h
    · exact absurd (h2.trans h0) h1
  · simp only [if_neg h0] at h ⊢
    by_cases hc : (!env.createOk) = true
    · rw [if_pos hc] at h; cases h
    · rw [if_neg hc] at h
      simp only [if_neg hc]
      refine ⟨h, fun n hn => ?_⟩
      unfold put
      split
      · rfl
      · rename_i hne
        exact hn.resolve_right fun h => hne h.2

theorem save_move {d d₁ d₁' : Disk} {o c : Bytes} (h : Save d₁ o c d₁' true) :
    ∃ d', Save d o c d' true ∧ ∀ n, (d n = d₁ n ∨ n = o) → d' n = d₁' n := by
  cases h with
  | ok =>
    refine ⟨_, .ok, fun n hn => ?_⟩
    unfold put
    split
    · rfl
    · rename_i hne
      exact hn.resolve_right hne

theorem outStl_move {fl : CutFlags} {b : BinVOX F} {d d₁ d₁' : Disk} (h : OutStl lib fl b d₁ d₁' true) :
    ∃ d', OutStl lib fl b d d' true ∧ ∀ n, (d n = d₁ n ∨ (n ≠ [] ∧ n = fl.ostl)) → d' n = d₁' n := by
  generalize he : true = ok at h
  cases h with
  | none h0 =>
    refine ⟨d, .none h0, fun n hn => ?_⟩
    rcases hn with h | ⟨h1, h2⟩
    · exact h
    · exact absurd (h2.trans h0) h1
  | manifold h0 hm ht hs =>
    subst he
    obtain ⟨d', h1, h2⟩ := save_move (d := d) hs
    exact ⟨d', .manifold h0 hm ht h1, fun n hn => h2 n (hn.imp id And.right)⟩
  | cubes h0 hm ht hs =>
    subst he
    obtain ⟨d', h1, h2⟩ := save_move (d := d) hs
    exact ⟨d', .cubes h0 hm ht h1, fun n hn => h2 n (hn.imp id And.right)⟩

/-- A run that ends well does the same from files that differ in the outputs. -/
theorem voxcut_move {fl : CutFlags} {d d₁ d₁' : Disk} (h : VoxcutRun (F := F) lib d₁ fl d₁' .done) (hf : ∀ f ∈ fl.files, d f = d₁ f) :
    ∃ d', VoxcutRun (F := F) lib d fl d' .done ∧
      ∀ n, (d n = d₁ n ∨ (n ≠ [] ∧ n ∈ [fl.obinvox, fl.ovox, fl.ostl])) → d' n = d₁' n := by
  generalize he : Exit.done = e at h
  cases h with
  | fatal _ => cases he
  | binvoxFails _ _ => cases he
  | voxFails _ _ _ _ => cases he
  | @last b env m env2 d₁' ok h h1 hm h2 h3 =>
    cases ok with
    | false => cases he
    | true =>
      obtain ⟨g1, k1⟩ := outBinvox_move (d := d) h1
      obtain ⟨g2, k2⟩ := outVox_move (d := (outBinvox fl b env d).1) h2
      obtain ⟨d', g3, k3⟩ := outStl_move (d := (outVox fl m env2 (outBinvox fl b env d).1).1) h3
      have := VoxcutRun.last (lib := lib) (ok := true) (by rw [cutModel_congr hf]; exact h) g1 hm g2 g3
      refine ⟨d', this, fun n hn => k3 n ?_⟩
      by_cases hs : n ≠ [] ∧ n = fl.ostl
      · exact Or.inr hs
      · refine Or.inl (k2 n ?_)
        by_cases hv : n ≠ [] ∧ n = fl.ovox
        · exact Or.inr hv
        · refine Or.inl (k1 n ?_)
          rcases hn with h | ⟨h0, h⟩
          · exact Or.inl h
          · simp only [List.mem_cons, List.not_mem_nil, or_false] at h
            rcases h with h | h | h
            · exact Or.inr ⟨h0, h⟩
            · exact absurd ⟨h0, h⟩ hv
            · exact absurd ⟨h0, h⟩ hs

/-- **C129.** If no output of voxcut is one of its inputs, it can be killed, and can fail, any number of
    times: a run that then ends well leaves the files that a run on the original files can leave, all of them,
    and each of those can be left. -/
theorem voxcut_run_again {d d₁ d' : Disk} {fl : CutFlags} (hclash : ∀ f ∈ fl.files, f = [] ∨ f ∉ [fl.obinvox, fl.ovox, fl.ostl])
    (h : VoxcutTries (F := F) lib fl d d₁) :
    VoxcutRun (F := F) lib d₁ fl d' .done ↔ VoxcutRun (F := F) lib d fl d' .done := by
  have hf : ∀ f ∈ fl.files, d₁ f = d f := fun f hf => voxcut_tries_others h (hclash f hf)
  have hall : ∀ n, d₁ n = d n ∨ (n ≠ [] ∧ n ∈ [fl.obinvox, fl.ovox, fl.ostl]) := by
    intro n
    by_cases hn : n = [] ∨ n ∉ [fl.obinvox, fl.ovox, fl.ostl]
    · exact Or.inl (voxcut_tries_others h hn)
    · push Not at hn
      exact Or.inr hn
  constructor
  · intro hr
    obtain ⟨d₂, h1, h2⟩ := voxcut_move (d := d) hr fun f m => (hf f m).symm
    have : d₂ = d' := funext fun n => h2 n ((hall n).imp Eq.symm id)
    rwa [this] at h1
  · intro hr
    obtain ⟨d₂, h1, h2⟩ := voxcut_move (d := d₁) hr hf
    have : d₂ = d' := funext fun n => h2 n (hall n)
    rwa [this] at h1

/-- **C129.** The kills do damage: whatever STL or VOX file a run that ends well leaves, a kill can leave with any
    beginning of its content (a VOX file that has the name of the STL file is the latter). -/
theorem voxcut_torn {d d' : Disk} {fl : CutFlags} (h : VoxcutRun (F := F) lib d fl d' .done) {n c q : Bytes}
    (hn : n = fl.ostl ∨ n = fl.ovox) (h0 : n ≠ []) (hc : d' n = some c) (hq : q <+: c) :
    ∃ d₁, VoxcutKilled (F := F) lib d fl d₁ ∧ d₁ n = some q := by
  have hdone := h
  generalize he : Exit.done = e at h
  cases h with
  | fatal _ => cases he
  | binvoxFails _ _ => cases he
  | voxFails _ _ _ _ => cases he
  | @last b env m env2 d₁' ok h h1 hm h2 h3 =>
    have hst : n = fl.ostl → ∃ tris, CutMesh lib fl b tris ∧ c = lib.stl tris := by
      intro hn
      obtain ⟨b', hb, g, -, -⟩ := voxcut_done hdone
      rw [h] at hb
      injection hb with hb
      subst hb
      obtain ⟨tris, g1, g2⟩ := g (hn ▸ h0)
      refine ⟨tris, g1, ?_⟩
      rw [← hn, hc] at g2
      exact Option.some.inj g2
    by_cases hs : n = fl.ostl
    · obtain ⟨tris, g1, rfl⟩ := hst hs
      exact ⟨_, .stl h h1 hm h2 (hs ▸ h0) g1 hq, by rw [hs, put_self]⟩
    · have hv : n = fl.ovox := hn.resolve_left hs
      obtain ⟨b', hb, -, g, -⟩ := voxcut_done hdone
      rw [h] at hb
      injection hb with hb
      subst hb
      obtain ⟨m', g1, g2⟩ := g (hv ▸ h0) (hv ▸ hs)
      rw [← hv, hc] at g2
      injection g2 with g2
      subst g2
      exact ⟨_, .vox h h1 (hv ▸ h0) g1 hq, by rw [hv, put_self]⟩

/-- **C129 (the boundary).** If the binvox output is the base, a kill right after its creation leaves an
    empty base, and no later start ends well. -/
theorem voxcut_killed_in_place {d : Disk} {fl : CutFlags} {base : Bytes} {cuts : List Bytes} {b : BinVOX F}
    (hf : fl.files = base :: cuts) (h0 : base ≠ []) (ho : fl.obinvox = base) (hb : cutModel (F := F) d fl = some b) :
    ∃ d₁, VoxcutKilled (F := F) lib d fl d₁ ∧ d₁ base = some [] ∧
      ∀ d' e, VoxcutRun (F := F) lib d₁ fl d' e → d' = d₁ ∧ e = .fatal := by
  refine ⟨put d fl.obinvox [], .binvox hb (by rw [ho]; exact h0) List.nil_prefix, by rw [ho, put_self], ?_⟩
  intro d' e h
  refine (voxcut_touches h).2 ?_
  unfold cutModel
  rw [hf]
  dsimp only
  split
  · rfl
  · have : BinVOX.Read (F := F) (input (put d fl.obinvox []) base) fl.region = none := by
      unfold input
      rw [ho, put_self]
      show BinVOX.read (F := F) ⟨[], true⟩ fl.region = none
      unfold BinVOX.read readHeader readLine
      split <;> rfl
    rw [this]

/-! ## voxcut-dice -/

section Tiles
variable {d : Disk} {fl : CutDiceFlags} {base : Bytes} {cuts : List Bytes} {bw : BinVOX F} {whole : Bytes → BinVOX F}

/-- The files voxcut-dice may write: those of the tiles. -/
def DiceOut (bw : BinVOX F) (fl : CutDiceFlags) (n : Bytes) : Prop :=
  n ≠ [] ∧ ∃ t, IsTile bw.NX bw.NY bw.NZ fl.size t ∧ n ∈ cutOuts fl t

theorem cutOuts_mem (fl : CutDiceFlags) (t : Key) (n : Bytes) :
    n ∈ [(tileFlags fl t).obinvox, (tileFlags fl t).ovox, (tileFlags fl t).ostl] ↔ n ∈ cutOuts fl t := by
  unfold cutOuts tileFlags
  simp only [List.mem_cons, List.not_mem_nil, or_false]
  tauto

theorem anyTile_other (J : CutJob d fl base cuts bw whole) {t : Key} (ht : IsTile bw.NX bw.NY bw.NZ fl.size t) {d1 d2 : Disk} {e : Exit}
    (h : AnyTile (F := F) float lib fl d1 t d2 e) {n : Bytes} (hn : n = [] ∨ n ∉ cutOuts fl t) : d2 n = d1 n := by
  rw [← cutOuts_mem] at hn
  rcases h with h | ⟨_, cfl, hp, h⟩
  · exact run_other ((job_step J ht).mp h) hn
  · obtain ⟨⟨a1, a2, a3, a4, a5, a6⟩, _⟩ := ht
    obtain ⟨b1, b2, b3⟩ := J.dims
    obtain ⟨c1, c2⟩ := J.size
    rw [cut_args_parsed float fl t ⟨by omega, c2⟩ ⟨by omega, by omega⟩ ⟨by omega, by omega⟩ ⟨by omega, by omega⟩ (by
      intro f hf
      rw [J.files] at hf
      injection hf with hf
      rw [← hf]
      exact J.name)] at hp
    injection hp with hp
    subst hp
    exact killed_other h hn

theorem runList_other (J : CutJob d fl base cuts bw whole) {ts : List Key} {d1 d2 : Disk} {e : Exit}
    (h : RunList (AnyTile (F := F) float lib fl) ts d1 d2 e) (hts : ∀ t ∈ ts, IsTile bw.NX bw.NY bw.NZ fl.size t) {n : Bytes}
    (hn : ¬ DiceOut bw fl n) : d2 n = d1 n := by
  have key : ∀ t, IsTile bw.NX bw.NY bw.NZ fl.size t → n = [] ∨ n ∉ cutOuts fl t := by
    intro t ht
    by_cases h0 : n = []
    · exact Or.inl h0
    · exact Or.inr fun hm => hn ⟨h0, t, ht, hm⟩
  induction h with
  | nil => rfl
  | fails hs he => exact anyTile_other J (hts _ (by simp)) hs (key _ (hts _ (by simp)))
  | cons hs _ ih =>
    exact (ih fun t ht => hts t (by simp [ht])).trans (anyTile_other J (hts _ (by simp)) hs (key _ (hts _ (by simp))))

theorem runList_any {ts : List Key} {d1 d2 : Disk} {e : Exit} (h : RunList (runTile (F := F) float lib fl) ts d1 d2 e) :
    RunList (AnyTile (F := F) float lib fl) ts d1 d2 e := by
  induction h with
  | nil => exact .nil
  | fails hs he => exact .fails (Or.inl hs) he
  | cons hs _ ih => exact .cons (Or.inl hs) ih

/-- A job stays one when none of its files changes. -/
theorem job_congr (J : CutJob d fl base cuts bw whole) {d1 : Disk} (h : ∀ f ∈ fl.files, d1 f = d f) :
    CutJob d1 fl base cuts bw whole := by
  have hi : ∀ f ∈ fl.files, input d1 f = input d f := by
    intro f hf; unfold input; rw [h f hf]
  have hh : ∀ f ∈ fl.files, ∀ b : BinVOX F, Holds d f b → Holds d1 f b := by
    intro f hf b hb
    unfold Holds at hb ⊢
    rw [hi f hf]
    exact hb
  exact ⟨J.files, hh _ (by rw [J.files]; simp) _ J.holds, fun c hc => hh _ (by rw [J.files]; simp [hc]) _ (J.holdsCuts c hc),
    J.dims, J.size, J.fits, J.outs, J.name, J.noClash⟩

theorem job_not_out (J : CutJob d fl base cuts bw whole) {f : Bytes} (hf : f ∈ fl.files) : ¬ DiceOut bw fl f := by
  rintro ⟨_, t, ht, hm⟩
  exact J.noClash f hf t ht hm

/-- The command that is run on the files, dry or not, as a list of tiles. -/
theorem cut_dice_list (J : CutJob d fl base cuts bw whole) {args : List Bytes} (ha : cutDiceFlags args = some (false, fl)) {out : Bytes}
    {d' : Disk} {e : Exit} : CutDiceProc (F := F) float lib d args out d' e ↔
      out = [] ∧ (TooSmall bw fl.size ∧ d' = d ∧ e = .fatal ∨
        ¬ TooSmall bw fl.size ∧ RunList (runTile (F := F) float lib fl) (modelFrom bw.NX bw.NY bw.NZ fl.size 0) d d' e) := by
  obtain ⟨b1, b2⟩ := job_base (F := F) J
  constructor
  · intro h
    cases h with
    | usage h => rw [cutDiceFlags_exit h] at ha; cases ha
    | refused h hb =>
      rw [ha] at h
      injection h with h
      injection h with _ h
      subst h
      refine ⟨rfl, Or.inl ⟨?_, rfl, rfl⟩⟩
      by_contra hc
      obtain ⟨b, hb', _⟩ := b2 hc
      rw [hb] at hb'
      cases hb'
    | dry h hb ht =>
      rw [ha] at h
      injection h with h
      injection h with h _
      cases h
    | @run fl' b d' e h hb hl =>
      rw [ha] at h
      injection h with h
      injection h with _ h
      subst h
      have hsm : ¬ TooSmall bw fl.size := by
        intro hc
        rw [b1 hc] at hb
        cases hb
      obtain ⟨b', hb', e1, e2, e3⟩ := b2 hsm
      rw [hb] at hb'
      injection hb' with hb'
      rw [← hb'] at e1 e2 e3
      rw [e1, e2, e3] at hl
      rw [diceLoop_iff J.size.1 J.fits] at hl
      exact ⟨rfl, Or.inr ⟨hsm, hl⟩⟩
  · rintro ⟨rfl, ⟨hsm, rfl, rfl⟩ | ⟨hsm, hl⟩⟩
    · exact .refused ha (b1 hsm)
    · obtain ⟨b, hb, e1, e2, e3⟩ := b2 hsm
      refine .run ha hb ?_
      rw [e1, e2, e3]
      exact (diceLoop_iff J.size.1 J.fits).mpr hl

/-- **C129.** However often voxcut-dice was started before, and however each start ended, no file but those of
    the tiles changed. -/
theorem cut_dice_tries_others (J : CutJob d fl base cuts bw whole) {args : List Bytes} (ha : cutDiceFlags args = some (false, fl))
    {d₁ : Disk} (h : CutDiceTries (F := F) float lib args d d₁) {n : Bytes}
    (hn : n = [] ∨ ∀ t, IsTile bw.NX bw.NY bw.NZ fl.size t → n ∉ cutOuts fl t) : d₁ n = d n := by
  have hn' : ¬ DiceOut bw fl n := by
    rintro ⟨h0, t, ht, hm⟩
    rcases hn with h | h
    · exact h0 h
    · exact h t ht hm
  have tiles : ∀ t ∈ modelFrom bw.NX bw.NY bw.NZ fl.size 0, IsTile bw.NX bw.NY bw.NZ fl.size t :=
    fun t ht => (modelFrom_mem J.size.1 t).mp ht
  suffices H : ∀ n, ¬ DiceOut bw fl n → d₁ n = d n from H n hn'
  clear hn hn' n
  induction h with
  | none => intro _ _; rfl
  | @ran d1 d2 out e _ hr ih =>
    intro n hn
    have J1 := job_congr J fun f hf => ih f (job_not_out J hf)
    rw [← ih n hn]
    obtain ⟨-, ⟨-, rfl, -⟩ | ⟨-, hl⟩⟩ := (cut_dice_list J1 ha).mp hr
    · rfl
    · exact runList_other J1 (runList_any hl) tiles hn
  | @killed d1 d2 fl' b e _ ha' hb hl ih =>
    intro n hn
    have J1 := job_congr J fun f hf => ih f (job_not_out J hf)
    rw [← ih n hn]
    rw [ha] at ha'
    injection ha' with ha'
    injection ha' with _ ha'
    subst ha'
    obtain ⟨b1, b2⟩ := job_base (F := F) J1
    have hsm : ¬ TooSmall bw fl.size := by
      intro hc
      rw [b1 hc] at hb
      cases hb
    obtain ⟨b', hb', e1, e2, e3⟩ := b2 hsm
    rw [hb] at hb'
    injection hb' with hb'
    rw [← hb'] at e1 e2 e3
    rw [e1, e2, e3] at hl
    rw [diceLoop_iff J.size.1 J.fits] at hl
    exact runList_other J1 hl tiles hn

/-- The tiles of a run that ends well, from files that differ in the outputs. -/
theorem runList_move (J : CutJob d fl base cuts bw whole) {ts : List Key} {d1 d1' : Disk}
    (h : RunList (runTile (F := F) float lib fl) ts d1 d1' .done) (hts : ∀ t ∈ ts, IsTile bw.NX bw.NY bw.NZ fl.size t) :
    ∀ {d0 : Disk}, (∀ f ∈ fl.files, d0 f = d1 f) →
    ∃ d', RunList (runTile (F := F) float lib fl) ts d0 d' .done ∧
      ∀ n, (d0 n = d1 n ∨ (n ≠ [] ∧ ∃ t ∈ ts, n ∈ cutOuts fl t)) → d' n = d1' n := by
  generalize he : Exit.done = e at h
  induction h with
  | nil =>
    intro d0 _
    refine ⟨d0, .nil, fun n hn => ?_⟩
    rcases hn with h | ⟨_, t, ht, _⟩
    · exact h
    · exact absurd ht List.not_mem_nil
  | fails _ _ => cases he
  | @cons t ts d1 d2 d1' e hs hr ih =>
    intro d0 hf
    have ht := hts t (by simp)
    obtain ⟨d3, h1, h2⟩ := voxcut_move ((job_step J ht).mp hs) hf
    simp only [cutOuts_mem] at h2
    obtain ⟨d4, h3, h4⟩ := ih (fun u hu => hts u (by simp [hu])) he (d0 := d3) (fun f m => h2 f (Or.inl (hf f m)))
    refine ⟨d4, .cons ((job_step J ht).mpr h1) h3, fun n hn => h4 n ?_⟩
    rcases hn with hn | ⟨h0, u, hu, hm⟩
    · exact Or.inl (h2 n (Or.inl hn))
    · rcases List.mem_cons.mp hu with rfl | hu
      · exact Or.inl (h2 n (Or.inr ⟨h0, hm⟩))
      · exact Or.inr ⟨h0, u, hu, hm⟩

/-- **C129.** voxcut-dice can be killed, and can fail, any number of times: for a job as it is meant (no output is
    one of the files), a run that then ends well leaves the files that a run on the original files can leave,
    all of them, and each of those can be left. -/
theorem cut_dice_run_again (J : CutJob d fl base cuts bw whole) {args : List Bytes} (ha : cutDiceFlags args = some (false, fl))
    {d₁ d' : Disk} {out : Bytes} (h : CutDiceTries (F := F) float lib args d d₁) :
    CutDiceProc (F := F) float lib d₁ args out d' .done ↔ CutDiceProc (F := F) float lib d args out d' .done := by
  have tiles : ∀ t ∈ modelFrom bw.NX bw.NY bw.NZ fl.size 0, IsTile bw.NX bw.NY bw.NZ fl.size t :=
    fun t ht => (modelFrom_mem J.size.1 t).mp ht
  have hoth : ∀ n, ¬ DiceOut bw fl n → d₁ n = d n := by
    intro n hn
    refine cut_dice_tries_others J ha h ?_
    by_cases h0 : n = []
    · exact Or.inl h0
    · exact Or.inr fun t ht hm => hn ⟨h0, t, ht, hm⟩
  have hf : ∀ f ∈ fl.files, d₁ f = d f := fun f hf => hoth f (job_not_out J hf)
  have J1 := job_congr J hf
  have hall : ∀ n, d₁ n = d n ∨ (n ≠ [] ∧ ∃ t ∈ modelFrom bw.NX bw.NY bw.NZ fl.size 0, n ∈ cutOuts fl t) := by
    intro n
    by_cases hn : DiceOut bw fl n
    · obtain ⟨h0, t, ht, hm⟩ := hn
      exact Or.inr ⟨h0, t, (modelFrom_mem J.size.1 t).mpr ht, hm⟩
    · exact Or.inl (hoth n hn)
  rw [cut_dice_list J1 ha, cut_dice_list J ha]
  refine and_congr_right fun _ => ?_
  constructor
  · rintro (⟨_, _, h⟩ | ⟨hsm, hl⟩)
    · cases h
    · obtain ⟨d₂, h1, h2⟩ := runList_move J hl tiles (d0 := d) fun f m => (hf f m).symm
      have : d₂ = d' := funext fun n => h2 n ((hall n).imp Eq.symm id)
      rw [this] at h1
      exact Or.inr ⟨hsm, h1⟩
  · rintro (⟨_, _, h⟩ | ⟨hsm, hl⟩)
    · cases h
    · obtain ⟨d₂, h1, h2⟩ := runList_move J hl tiles (d0 := d₁) hf
      have : d₂ = d' := funext fun n => h2 n (hall n)
      rw [this] at h1
      exact Or.inr ⟨hsm, h1⟩

end Tiles

/-! ## manifold-mesh and marching-cubes -/

section Convert
variable {mesh : BinVOX F → List (Tri (Vec F)) → Prop} {d d₁ d' : Disk} {i o : Bytes}

/-- **C129.** However often the command was started before, no file but its output changed. -/
theorem convert_tries_others (h : ConvertTries (F := F) mesh lib i o d d₁) {n : Bytes} (hn : n ≠ o) : d₁ n = d n := by
  induction h with
  | none => rfl
  | ran _ h ih =>
    rw [← ih]
    generalize ha : [i, o] = args at h
    cases h with
    | usage _ => rfl
    | unreadable _ => rfl
    | saved _ _ hs =>
      injection ha with _ ha
      injection ha with ha _
      subst ha
      exact save_other hs hn
  | killed _ _ _ _ ih => rw [put_other _ _ hn, ih]

theorem convert_move (hio : i ≠ o) {d₁' : Disk} (h : ConvertRun (F := F) mesh lib d₁ [i, o] d₁' .done) (hd : ∀ n, n ≠ o → d n = d₁ n) :
    ConvertRun (F := F) mesh lib d [i, o] d₁' .done := by
  obtain ⟨b, tris, h1, h2, h3⟩ : ∃ b tris, BinVOX.Read (F := F) (input d₁ i) ⟨0, 0, 0, 0, 0, 0⟩ = some b ∧ mesh b tris ∧
      Save d₁ o (lib.stl tris) d₁' true := by
    generalize ha : [i, o] = args at h
    generalize he : Exit.done = e at h
    cases h with
    | usage _ => cases he
    | unreadable _ => cases he
    | @saved i' o' b tris d'' ok h ht hs =>
      injection ha with hi ha
      injection ha with ha _
      subst hi
      subst ha
      cases ok with
      | false => cases he
      | true => exact ⟨b, tris, h, ht, hs⟩
  have hin : input d i = input d₁ i := by unfold input; rw [hd i hio]
  obtain ⟨d₂, g1, g2⟩ := save_move (d := d) h3
  have : d₂ = d₁' := funext fun n => g2 n (by
    by_cases hn : n = o
    · exact Or.inr hn
    · exact Or.inl (hd n hn))
  rw [this] at g1
  have := ConvertRun.saved (mesh := mesh) (ok := true) (by rw [hin]; exact h1) h2 g1
  exact this

/-- **C129.** If the output of manifold-mesh or marching-cubes is not its input, the command can be killed, and
    can fail, any number of times: a run that then ends well leaves what a run on the original files can leave, and
    each such result is possible. -/
theorem convert_run_again (hio : i ≠ o) (h : ConvertTries (F := F) mesh lib i o d d₁) :
    ConvertRun (F := F) mesh lib d₁ [i, o] d' .done ↔ ConvertRun (F := F) mesh lib d [i, o] d' .done :=
  ⟨fun hr => convert_move hio hr fun _ hn => (convert_tries_others h hn).symm,
    fun hr => convert_move hio hr fun _ hn => convert_tries_others h hn⟩

theorem manifold_mesh_run_again (hio : i ≠ o) (h : ConvertTries (F := F) Manifold.ManifoldRun lib i o d d₁) :
    ManifoldCmd (F := F) lib d₁ [i, o] d' .done ↔ ManifoldCmd (F := F) lib d [i, o] d' .done := convert_run_again hio h

theorem marching_cubes_run_again (hio : i ≠ o) (h : ConvertTries (F := F) Marching.MarchingRun lib i o d d₁) :
    MarchingCmd (F := F) lib d₁ [i, o] d' .done ↔ MarchingCmd (F := F) lib d [i, o] d' .done := convert_run_again hio h

end Convert

/-! ## The hypotheses are met -/

/-- voxcut-dice of the example of C79, killed when it has created its first file, and its first voxcut, killed at
    the same moment: run again, both can end well, and leave what they leave on the original files. -/
example (float : Bytes → Bool) (lib : GL ℚ) : ∃ (cfl : CutFlags) (d₁ d' dv : Disk),
    CutDiceTries (F := ℚ) float lib [ascii "-size", ascii "1", ascii "-ostl", ascii "o", ascii "--obinvox=o", ascii "b", ascii "c"] exCutDisk d₁ ∧
    VoxcutTries (F := ℚ) lib cfl exCutDisk d₁ ∧
    exCutDisk (ascii "o-0000-0000-0000-0001-0001-0001.binvox") = none ∧
    d₁ (ascii "o-0000-0000-0000-0001-0001-0001.binvox") = some [] ∧
    CutDiceProc (F := ℚ) float lib d₁ [ascii "-size", ascii "1", ascii "-ostl", ascii "o", ascii "--obinvox=o", ascii "b", ascii "c"] [] d' .done ∧
    VoxcutRun (F := ℚ) lib d₁ cfl dv .done ∧ VoxcutRun (F := ℚ) lib exCutDisk cfl dv .done ∧
    d₁ (ascii "b") = exCutDisk (ascii "b") := by
  obtain ⟨fl, bw, whole, d', hfl, J, hno, -, h, e1, e2, e3⟩ := exCut_runs float lib
  have hfl0 : fl = ⟨1, ascii "o", ascii "o", [], [ascii "b", ascii "c"]⟩ := by
    have : cutDiceFlags [ascii "-size", ascii "1", ascii "-ostl", ascii "o", ascii "--obinvox=o", ascii "b", ascii "c"] =
      some (false, ⟨1, ascii "o", ascii "o", [], [ascii "b", ascii "c"]⟩) := rfl
    rw [hfl] at this
    injection this with this
    injection this with _ this
  have ht : IsTile bw.NX bw.NY bw.NZ fl.size ⟨0, 0, 0⟩ := by
    rw [e1, e2, e3, hfl0]
    unfold IsTile InDims
    decide
  have hname : (tileFlags fl ⟨0, 0, 0⟩).obinvox = ascii "o-0000-0000-0000-0001-0001-0001.binvox" := by rw [hfl0]; decide +kernel
  obtain ⟨m, hm⟩ := Option.ne_none_iff_exists'.mp (mt (job_none_iff whiteCancels_rat J ht).mp (hno _ ht))
  have hk : VoxcutKilled (F := ℚ) lib exCutDisk (tileFlags fl ⟨0, 0, 0⟩)
      (put exCutDisk (tileFlags fl ⟨0, 0, 0⟩).obinvox []) :=
    .binvox hm (by rw [hname]; decide) List.nil_prefix
  have hp : voxcutFlags float (cutArgs fl ⟨0, 0, 0⟩).tail = some (tileFlags fl ⟨0, 0, 0⟩) := by
    refine cut_args_parsed float fl _ ?_ (by decide) (by decide) (by decide) ?_
    · rw [hfl0]; decide
    · intro f hf
      rw [J.files] at hf
      injection hf with hf
      rw [← hf]
      exact J.name
  have hsm : ¬ TooSmall bw fl.size := by
    unfold TooSmall
    rw [hfl0]
    dsimp only
    omega
  obtain ⟨b, hb, g1, g2, g3⟩ := (job_base (F := ℚ) J).2 hsm
  have hl : DiceLoop (AnyTile (F := ℚ) float lib fl) b.NX b.NY b.NZ fl.size 0 0 0 exCutDisk
      (put exCutDisk (tileFlags fl ⟨0, 0, 0⟩).obinvox []) .fatal :=
    .fails (by omega) (by omega) (by omega) (Or.inr ⟨by decide, _, hp, hk⟩) (e := .fatal) (by decide)
  have hd : CutDiceTries (F := ℚ) float lib [ascii "-size", ascii "1", ascii "-ostl", ascii "o", ascii "--obinvox=o", ascii "b", ascii "c"]
      exCutDisk (put exCutDisk (tileFlags fl ⟨0, 0, 0⟩).obinvox []) := .killed (.none _) hfl hb hl
  have hv : VoxcutTries (F := ℚ) lib (tileFlags fl ⟨0, 0, 0⟩) exCutDisk (put exCutDisk (tileFlags fl ⟨0, 0, 0⟩).obinvox []) :=
    .killed (.none _) hk
  obtain ⟨dv, hdv⟩ := voxcut_good (lib := lib) (by rfl) hm
  have hclash : ∀ f ∈ (tileFlags fl ⟨0, 0, 0⟩).files, f = [] ∨
      f ∉ [(tileFlags fl ⟨0, 0, 0⟩).obinvox, (tileFlags fl ⟨0, 0, 0⟩).ovox, (tileFlags fl ⟨0, 0, 0⟩).ostl] := by
    intro f hf
    rw [cutOuts_mem]
    exact Or.inr (J.noClash f hf _ ht)
  refine ⟨_, _, d', dv, hd, hv, ?_, by rw [hname, put_self], (cut_dice_run_again J hfl hd).mpr h,
    (voxcut_run_again hclash hv).mpr hdv, hdv, ?_⟩
  · unfold exCutDisk
    rw [put_other _ _ (by decide), put_other _ _ (by decide)]
  · exact cut_dice_tries_others J hfl hd (Or.inr fun t ht => J.noClash _ (by rw [J.files]; simp) t ht)

/-- The two other commands, killed when the output is created: both can still end well. -/
example (lib : GL ℚ) : ∃ (d d1 d2 d3 : Disk), ConvertTries (F := ℚ) Marching.MarchingRun lib (ascii "in.binvox") (ascii "out.stl") d d3 ∧
    ConvertTries (F := ℚ) Manifold.ManifoldRun lib (ascii "in.binvox") (ascii "out.stl") d d3 ∧
    d (ascii "out.stl") = none ∧ d3 (ascii "out.stl") = some [] ∧ MarchingCmd lib d3 [ascii "in.binvox", ascii "out.stl"] d1 .done ∧
    ManifoldCmd lib d3 [ascii "in.binvox", ascii "out.stl"] d2 .done := by
  obtain ⟨file, b, -, hr, -, -, -, -, hp⟩ := input_of_write exModel (by decide) (by decide) (by decide) (by decide)
    ⟨true, [], true⟩ rfl (by simp) rfl (fun _ => none) (ascii "in.binvox")
  obtain ⟨t1, h1⟩ := Marching.marching_run_exists b
  obtain ⟨t2, h2⟩ := Manifold.manifold_run_exists b
  have k1 : ConvertTries (F := ℚ) Marching.MarchingRun lib (ascii "in.binvox") (ascii "out.stl")
      (put (fun _ => none) (ascii "in.binvox") file) _ := .killed (.none _) hr h1 List.nil_prefix
  have k2 : ConvertTries (F := ℚ) Manifold.ManifoldRun lib (ascii "in.binvox") (ascii "out.stl")
      (put (fun _ => none) (ascii "in.binvox") file) _ := .killed (.none _) hr h2 List.nil_prefix
  exact ⟨_, _, _, _, k1, k2, put_other _ _ (by decide), put_self _ _ _,
    (marching_cubes_run_again (by decide) k1).mpr (convert_succeeds hr h1),
    (manifold_mesh_run_again (by decide) k2).mpr (convert_succeeds hr h2)⟩

/-- `-obinvox b` with the base `b`: killed after the creation of its output, voxcut has lost its base. -/
example (lib : GL ℚ) : ∃ (d d₁ : Disk) (fl : CutFlags), fl.files = [ascii "b"] ∧ VoxcutTries (F := ℚ) lib fl d d₁ ∧
    (∃ d', VoxcutRun (F := ℚ) lib d fl d' .done) ∧ ∀ d', ¬ VoxcutRun (F := ℚ) lib d₁ fl d' .done := by
  obtain ⟨file, b, -, hr, -, -, -, -, hp⟩ := input_of_write exModel (by decide) (by decide) (by decide) (by decide)
    ⟨true, [], true⟩ rfl (by simp) rfl (fun _ => none) (ascii "b")
  have hb : cutModel (F := ℚ) (put (fun _ => none) (ascii "b") file) ⟨ascii "b", [], [], wholeRegion, false, [ascii "b"]⟩ = some b := by
    unfold cutModel
    dsimp only
    rw [if_neg (by decide), hr]
    rfl
  obtain ⟨d₁, h1, -, h3⟩ := voxcut_killed_in_place (lib := lib) (cuts := []) rfl (by decide) rfl hb
  refine ⟨_, d₁, _, rfl, .killed (.none _) h1, voxcut_good rfl hb, fun d' h => ?_⟩
  have := (h3 _ _ h).2
  cases this

/-- The STL file of such a run, cut after its header. -/
example (lib : GL ℚ) : ∃ (d d₁ : Disk) (fl : CutFlags) (c : Bytes), (∃ d', VoxcutRun (F := ℚ) lib d fl d' .done ∧ d' (ascii "o") = some c) ∧
    VoxcutKilled (F := ℚ) lib d fl d₁ ∧ d₁ (ascii "o") = some (c.take 84) := by
  obtain ⟨file, b, -, hr, -, -, -, -, hp⟩ := input_of_write exModel (by decide) (by decide) (by decide) (by decide)
    ⟨true, [], true⟩ rfl (by simp) rfl (fun _ => none) (ascii "b")
  have hb : cutModel (F := ℚ) (put (fun _ => none) (ascii "b") file) ⟨[], ascii "o", [], wholeRegion, false, [ascii "b"]⟩ = some b := by
    unfold cutModel
    dsimp only
    rw [if_neg (by decide), hr]
    rfl
  obtain ⟨d', h⟩ := voxcut_good (lib := lib) rfl hb
  obtain ⟨b', -, g, -⟩ := voxcut_done h
  obtain ⟨tris, -, g⟩ := g (by decide)
  obtain ⟨d₁, h1, h2⟩ := voxcut_torn h (Or.inl rfl) (by decide) g (List.take_prefix 84 _)
  exact ⟨_, d₁, _, _, ⟨d', h, g⟩, h1, h2⟩

end Cmd
end StlDice
