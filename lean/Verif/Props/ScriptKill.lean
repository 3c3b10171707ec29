import Verif.Model.ScriptKill
import Verif.Props.DiceRuns

/-! # C127: the script of stldice can be killed and run again -/

namespace StlDice
namespace Cmd
open Spec BinVOX

section
variable {F : Type} [GoFloat F] [FloatText F]

/-- A voxcut line of stldice's script: STL output, binvox inputs. -/
def CutShape (ws : List Bytes) : Prop :=
  ws = [ascii "#!/bin/bash", ascii "-x"] ∨
  ∃ (x : Bytes) (files : List Bytes), ws = ascii "voxcut" :: ascii "-ostl" :: (x ++ ascii ".stl") :: files ∧
    ∀ f ∈ files, ∃ y, f = y ++ ascii ".binvox"

/-- The merge line. -/
def mergeWords (p : Bytes) : List Bytes := [ascii "merge-stl", ascii "-f", ascii "-prefix", p]

/-- The files the lines write when all goes well: for a voxcut line that leaves something, and for the merge. -/
def Outs (F : Type) [GoFloat F] [FloatText F] (lines : List (List Bytes)) (d : Disk) (n : Bytes) : Prop :=
  (∃ o files, (ascii "voxcut" :: ascii "-ostl" :: o :: files) ∈ lines ∧ n = o ∧ cutModel (F := F) d (stlFlags o files) ≠ none) ∨
  ∃ p, mergeWords p ∈ lines ∧ n = p ++ ascii ".stl"

/-- The same binvox files. -/
def SameBin (d e : Disk) : Prop := ∀ y : Bytes, e (y ++ ascii ".binvox") = d (y ++ ascii ".binvox")

theorem put_get_other {d : Disk} {n m c : Bytes} (h : m ≠ n) : put d n c m = d m := by
  unfold put; rw [if_neg h]

omit [GoFloat F] in
theorem put_stl_bin (d : Disk) (x c : Bytes) : SameBin d (put d (x ++ ascii ".stl") c) := by
  intro y
  exact put_get_other (fun h => tileStl_ne_bin x y h.symm)

theorem cutModel_same {d e : Disk} (h : SameBin d e) {o : Bytes} {files : List Bytes} (hf : ∀ f ∈ files, ∃ y, f = y ++ ascii ".binvox") :
    cutModel (F := F) e (stlFlags o files) = cutModel (F := F) d (stlFlags o files) := by
  have hin : ∀ f ∈ files, input e f = input d f := by
    intro f hm
    obtain ⟨y, rfl⟩ := hf f hm
    unfold input
    rw [h y]
  unfold cutModel stlFlags
  cases files with
  | nil => rfl
  | cons base cuts =>
    dsimp only
    rw [hin base (by simp)]
    have : (cuts.map fun f => BinVOX.Read (F := F) (input e f) ⟨0, 0, 0, 0, 0, 0⟩) =
        cuts.map fun f => BinVOX.Read (F := F) (input d f) ⟨0, 0, 0, 0, 0, 0⟩ :=
      List.map_congr_left fun f hm => by rw [hin f (by simp [hm])]
    rw [this]

/-- What a line can change, however it ends. -/
theorem anyLine_changes {lib : GL F} {load : Bytes → Option (List (Tri (Vec F)))} {workers : Nat} {d d' : Disk} {ws : List Bytes}
    (hs : CutShape ws ∨ ∃ p, ws = mergeWords p) (h : AnyLine lib load workers d ws d') :
    SameBin d d' ∧ ∀ n, d' n = d n ∨ Outs F [ws] d n := by
  obtain ⟨e, h⟩ := h
  have refl : ∀ d : Disk, SameBin d d := fun d y => rfl
  cases h with
  | comment h => exact ⟨refl _, fun n => Or.inl rfl⟩
  | @voxcut o files d' e h =>
    have hx : ∃ x, o = x ++ ascii ".stl" := by
      rcases hs with (hs | ⟨x, fs, hs, -⟩) | ⟨p, hs⟩
      · injection hs with hs _
        exact absurd hs (by decide)
      · injection hs with _ hs
        injection hs with _ hs
        injection hs with hs _
        exact ⟨x, hs⟩
      · unfold mergeWords at hs
        injection hs with hs _
        exact absurd hs (by decide)
    obtain ⟨x, rfl⟩ := hx
    have wrote : ∀ c, cutModel (F := F) d (stlFlags (x ++ ascii ".stl") files) ≠ none →
        SameBin d (put d (x ++ ascii ".stl") c) ∧ ∀ n, put d (x ++ ascii ".stl") c n = d n ∨
          Outs F [ascii "voxcut" :: ascii "-ostl" :: (x ++ ascii ".stl") :: files] d n := by
      intro c hc
      refine ⟨put_stl_bin d x c, fun n => ?_⟩
      by_cases hn : n = x ++ ascii ".stl"
      · exact Or.inr (Or.inl ⟨_, _, List.mem_singleton.mpr rfl, hn, hc⟩)
      · exact Or.inl (put_get_other hn)
    cases h with
    | fatal h => exact ⟨refl _, fun n => Or.inl rfl⟩
    | @binvoxFails b env h h1 =>
      have e1 : (outBinvox (stlFlags (x ++ ascii ".stl") files) b env d).1 = d := by
        unfold outBinvox stlFlags; simp
      rw [e1]
      exact ⟨refl _, fun n => Or.inl rfl⟩
    | @voxFails b env m env2 h h1 hm h2 =>
      have e1 : (outVox (stlFlags (x ++ ascii ".stl") files) m env2 (outBinvox (stlFlags (x ++ ascii ".stl") files) b env d).1).1 = d := by
        unfold outVox outBinvox stlFlags; simp
      rw [e1]
      exact ⟨refl _, fun n => Or.inl rfl⟩
    | @last b env m env2 _ ok h h1 hm h2 h3 =>
      have e1 : (outVox (stlFlags (x ++ ascii ".stl") files) m env2 (outBinvox (stlFlags (x ++ ascii ".stl") files) b env d).1).1 = d := by
        unfold outVox outBinvox stlFlags; simp
      rw [e1] at h3
      have hne : cutModel (F := F) d (stlFlags (x ++ ascii ".stl") files) ≠ none := by rw [h]; exact nofun
      cases h3 with
      | none h => exact ⟨refl _, fun n => Or.inl rfl⟩
      | manifold _ hm _ _ => cases hm
      | cubes _ _ ht hs =>
        cases hs with
        | ok => exact wrote _ hne
        | notCreated => exact ⟨refl _, fun n => Or.inl rfl⟩
        | part _ => exact wrote _ hne
  | @merge p names d' e hg h =>
    have wrote : ∀ c, SameBin d (put d (p ++ ascii ".stl") c) ∧ ∀ n, put d (p ++ ascii ".stl") c n = d n ∨
        Outs F [[ascii "merge-stl", ascii "-f", ascii "-prefix", p]] d n := by
      intro c
      refine ⟨put_stl_bin d p c, fun n => ?_⟩
      by_cases hn : n = p ++ ascii ".stl"
      · exact Or.inr (Or.inr ⟨p, List.mem_singleton.mpr rfl, hn⟩)
      · exact Or.inl (put_get_other hn)
    cases h with
    | refused h => exact ⟨refl _, fun n => Or.inl rfl⟩
    | failed h hr hret => exact ⟨refl _, fun n => Or.inl rfl⟩
    | nilNotCreated h hr hret => exact ⟨refl _, fun n => Or.inl rfl⟩
    | nilMesh h hr hret => exact wrote _
    | saved h hr hret hs =>
      cases hs with
      | ok => exact wrote _
      | notCreated => exact ⟨refl _, fun n => Or.inl rfl⟩
      | part _ => exact wrote _

theorem outs_mono {l l' : List (List Bytes)} (hsub : ∀ w ∈ l, w ∈ l') (hs : ∀ w ∈ l, CutShape w ∨ ∃ p, w = mergeWords p)
    {d d' : Disk} (hb : SameBin d d') {n : Bytes}
    (h : Outs F l d' n) : Outs F l' d n := by
  rcases h with ⟨o, files, h1, h2, h3⟩ | ⟨p, h1, h2⟩
  · refine Or.inl ⟨o, files, hsub _ h1, h2, ?_⟩
    rcases hs _ h1 with (e | ⟨x, fs, e, hf⟩) | ⟨p, e⟩
    · injection e with e _
      exact absurd e (by decide)
    · injection e with _ e
      injection e with _ e
      injection e with e1 e2
      subst e2
      rw [← cutModel_same hb hf]
      exact h3
    · unfold mergeWords at e
      injection e with e _
      exact absurd e (by decide)
  · exact Or.inr ⟨p, hsub _ h1, h2⟩

theorem sameBin_trans {a b c : Disk} (h : SameBin a b) (h' : SameBin b c) : SameBin a c := fun y => (h' y).trans (h y)

/-- What any part of the lines can change. -/
theorem anyRun_changes {lib : GL F} {load : Bytes → Option (List (Tri (Vec F)))} {workers : Nat} {run : List (List Bytes)} :
    ∀ {d d' : Disk}, (∀ w ∈ run, CutShape w ∨ ∃ p, w = mergeWords p) → ScriptRun (AnyLine lib load workers) d run d' →
    SameBin d d' ∧ ∀ n, d' n = d n ∨ Outs F run d n := by
  induction run with
  | nil =>
    intro d d' _ h
    cases h
    exact ⟨fun y => rfl, fun n => Or.inl rfl⟩
  | cons w run ih =>
    intro d d' hs h
    cases h with
    | @cons _ _ d1 _ _ h hr =>
      obtain ⟨b1, c1⟩ := anyLine_changes (hs w (by simp)) h
      have hs' : ∀ w ∈ run, CutShape w ∨ ∃ p, w = mergeWords p := fun v hv => hs v (by simp [hv])
      obtain ⟨b2, c2⟩ := ih hs' hr
      refine ⟨sameBin_trans b1 b2, fun n => ?_⟩
      rcases c2 n with e | e
      · rcases c1 n with e1 | e1
        · exact Or.inl (e.trans e1)
        · exact Or.inr (outs_mono (by simp) (fun v hv => hs v (by simp only [List.mem_singleton] at hv; simp [hv])) (fun y => rfl) e1)
      · exact Or.inr (outs_mono (fun v hv => by simp [hv]) hs' b1 e)

/-- What all earlier runs can have changed. -/
theorem earlier_changes {lib : GL F} {load : Bytes → Option (List (Tri (Vec F)))} {workers : Nat} {lines : List (List Bytes)} {d d' : Disk}
    (hs : ∀ w ∈ lines, CutShape w ∨ ∃ p, w = mergeWords p) (h : EarlierRuns lib load workers lines d d') :
    SameBin d d' ∧ ∀ n, d' n = d n ∨ Outs F lines d n := by
  induction h with
  | none => exact ⟨fun y => rfl, fun n => Or.inl rfl⟩
  | @again d1 d2 h hc ih =>
    obtain ⟨b1, c1⟩ := ih
    obtain ⟨run, rest, e, hr⟩ := hc
    have hs' : ∀ w ∈ run, CutShape w ∨ ∃ p, w = mergeWords p := fun w hw => hs w (by rw [e]; simp [hw])
    obtain ⟨b2, c2⟩ := anyRun_changes hs' hr
    refine ⟨sameBin_trans b1 b2, fun n => ?_⟩
    rcases c2 n with e2 | e2
    · rcases c1 n with e1 | e1
      · exact Or.inl (e2.trans e1)
      · exact Or.inr e1
    · exact Or.inr (outs_mono (fun w hw => by rw [e]; simp [hw]) hs' b1 e2)

/-! ## The run that goes through -/

omit [GoFloat F] [FloatText F] in
/-- A pool only loads the files it was given. -/
theorem poolReach_congr {T : Type} {load load' : Bytes → Option (List T)} {cap : Nat} {files : List Bytes} (hl : ∀ f ∈ files, load' f = load f)
    {s0 s : Pool T} (h0 : s0 = Pool.init files) (h : PoolReach load cap s0 s) :
    PoolReach load' cap s0 s ∧ (∀ f ∈ s.todo, f ∈ files) ∧ ∀ w ∈ s.workers, w.1 ∈ files := by
  induction h with
  | refl =>
    subst h0
    exact ⟨.refl _, fun f hf => hf, fun w hw => (List.not_mem_nil hw).elim⟩
  | @tail b c h st ih =>
    obtain ⟨r, ht, hw⟩ := ih
    cases st with
    | @spawn f fs h hc =>
      refine ⟨.tail r (.spawn h hc), ?_, ?_⟩
      · intro g hg
        exact ht g (by rw [h]; simp [hg])
      · intro w hw'
        rcases List.mem_append.mp hw' with hw' | hw'
        · exact hw w hw'
        · rw [List.mem_singleton] at hw'
          subst hw'
          exact ht f (by rw [h]; simp)
    | @loadOk pre post f m h hlo =>
      have hf : f ∈ files := hw (f, .start) (by rw [h]; simp)
      refine ⟨.tail r (.loadOk h ((hl f hf).trans hlo)), ht, ?_⟩
      intro w hw'
      rcases List.mem_append.mp hw' with hw' | hw'
      · exact hw w (by rw [h]; simp [hw'])
      · rcases List.mem_cons.mp hw' with rfl | hw'
        · exact hf
        · exact hw w (by rw [h]; simp [hw'])
    | @loadFail pre post f h hlo =>
      have hf : f ∈ files := hw (f, .start) (by rw [h]; simp)
      refine ⟨.tail r (.loadFail h ((hl f hf).trans hlo)), ht, ?_⟩
      intro w hw'
      rcases List.mem_append.mp hw' with hw' | hw'
      · exact hw w (by rw [h]; simp [hw'])
      · rcases List.mem_cons.mp hw' with rfl | hw'
        · exact hf
        · exact hw w (by rw [h]; simp [hw'])
    | @add pre post f m h =>
      have hf : f ∈ files := hw (f, .loaded m) (by rw [h]; simp)
      refine ⟨.tail r (.add h), ht, ?_⟩
      intro w hw'
      rcases List.mem_append.mp hw' with hw' | hw'
      · exact hw w (by rw [h]; simp [hw'])
      · rcases List.mem_cons.mp hw' with rfl | hw'
        · exact hf
        · exact hw w (by rw [h]; simp [hw'])
    | @release pre post f h hto =>
      have hf : f ∈ files := hw (f, .release) (by rw [h]; simp)
      refine ⟨.tail r (.release h hto), ht, ?_⟩
      intro w hw'
      rcases List.mem_append.mp hw' with hw' | hw'
      · exact hw w (by rw [h]; simp [hw'])
      · rcases List.mem_cons.mp hw' with rfl | hw'
        · exact hf
        · exact hw w (by rw [h]; simp [hw'])
    | @wgDone pre post f h =>
      refine ⟨.tail r (.wgDone h), ht, ?_⟩
      intro w hw'
      rcases List.mem_append.mp hw' with hw' | hw'
      · exact hw w (by rw [h]; simp [hw'])
      · exact hw w (by rw [h]; simp [hw'])
    | ret h hw0 hr0 => exact ⟨.tail r (.ret h hw0 hr0), ht, hw⟩

/-- The merge line on two disks that differ in its output at most. -/
theorem goodMerge_transfer {lib : GL F} {load : Bytes → Option (List (Tri (Vec F)))} {workers : Nat} {d e e' : Disk} {p : Bytes}
    (hde : ∀ n, n ≠ p ++ ascii ".stl" → e n = d n) (h : GoodLine lib load workers e (mergeWords p) e') :
    GoodLine lib load workers d (mergeWords p) e' := by
  obtain ⟨names, x, hg, hm, hx⟩ := goodLine_merge h
  clear h
  have hputs : ∀ c, put e (p ++ ascii ".stl") c = put d (p ++ ascii ".stl") c := by
    intro c
    funext n
    unfold put
    by_cases hn : n = p ++ ascii ".stl"
    · rw [if_pos hn, if_pos hn]
    · rw [if_neg hn, if_neg hn, hde n hn]
  -- the names seen on the other disk
  have hnames : ∃ names', Glob d p (ascii ".stl") names' ∧
      names'.filter (fun f => f ≠ p ++ ascii ".stl") = names.filter (fun f => f ≠ p ++ ascii ".stl") := by
    by_cases hd : d (p ++ ascii ".stl") = none
    · refine ⟨names.filter (fun f => f ≠ p ++ ascii ".stl"), ⟨hg.1.filter _, ?_⟩, ?_⟩
      · intro n
        rw [List.mem_filter, decide_eq_true_eq]
        constructor
        · rintro ⟨h1, h2⟩
          obtain ⟨h3, h4⟩ := (hg.2 n).mp h1
          exact ⟨by rw [← hde n h2]; exact h3, h4⟩
        · rintro ⟨h3, h4⟩
          have h2 : n ≠ p ++ ascii ".stl" := by rintro rfl; exact h3 hd
          exact ⟨(hg.2 n).mpr ⟨by rw [hde n h2]; exact h3, h4⟩, h2⟩
      · rw [List.filter_filter]
        simp
    · refine ⟨(p ++ ascii ".stl") :: names.filter (fun f => f ≠ p ++ ascii ".stl"), ⟨?_, ?_⟩, ?_⟩
      · rw [List.nodup_cons]
        refine ⟨?_, hg.1.filter _⟩
        rw [List.mem_filter, decide_eq_true_eq]
        exact fun h => h.2 rfl
      · intro n
        rw [List.mem_cons, List.mem_filter, decide_eq_true_eq]
        constructor
        · rintro (rfl | ⟨h1, h2⟩)
          · exact ⟨hd, [], by simp, by simp⟩
          · obtain ⟨h3, h4⟩ := (hg.2 n).mp h1
            exact ⟨by rw [← hde n h2]; exact h3, h4⟩
        · rintro ⟨h3, h4⟩
          by_cases h2 : n = p ++ ascii ".stl"
          · exact Or.inl h2
          · exact Or.inr ⟨(hg.2 n).mpr ⟨by rw [hde n h2]; exact h3, h4⟩, h2⟩
      · rw [List.filter_cons_of_neg (by simp), List.filter_filter]
        simp
  obtain ⟨names', hg', hfil⟩ := hnames
  -- the files merged are the same
  have hin : ∀ {files}, mergeInputs (p ++ ascii ".stl") true names = some files → mergeInputs (p ++ ascii ".stl") true names' = some files ∧
      ∀ f ∈ files, f ≠ p ++ ascii ".stl" := by
    intro files hf
    have e1 := (mergeInputs_exact _ _ _).2 _ hf
    cases h' : mergeInputs (p ++ ascii ".stl") true names' with
    | none =>
      obtain ⟨-, h2⟩ := (mergeInputs_exact _ _ _).1.mp h'
      cases h2
    | some files' =>
      have e2 := (mergeInputs_exact _ _ _).2 _ h'
      rw [e2, hfil, ← e1]
      refine ⟨rfl, ?_⟩
      intro f hm
      rw [e1, List.mem_filter, decide_eq_true_eq] at hm
      exact hm.2
  have hpool : ∀ {files s}, (∀ f ∈ files, f ≠ p ++ ascii ".stl") → PoolReach (fun n => (e n).bind load) workers (Pool.init files) s →
      PoolReach (fun n => (d n).bind load) workers (Pool.init files) s := by
    intro files s hf hr
    exact (poolReach_congr (fun f hm => by rw [hde f (hf f hm)]) rfl hr).1
  have noVoxcut : ∀ x, x ≠ Exit.fatal → (x = .fatal → ∃ o files, mergeWords p = ascii "voxcut" :: ascii "-ostl" :: o :: files ∧
      cutModel (F := F) d (stlFlags o files) = none) := fun x h1 h2 => absurd h2 h1
  cases hm with
  | refused h => exact absurd rfl hx
  | failed h hr hret => exact absurd rfl hx
  | nilNotCreated h hr hret => exact absurd rfl hx
  | @nilMesh files s h hr hret =>
    obtain ⟨h1, h2⟩ := hin h
    rw [hputs]
    exact ⟨.panic, .merge hg' (.nilMesh h1 (hpool h2 hr) hret), noVoxcut _ nofun⟩
  | @saved files s tris d' ok h hr hret hs =>
    obtain ⟨h1, h2⟩ := hin h
    cases ok with
    | false => exact absurd rfl hx
    | true =>
      rw [save_ok hs, hputs]
      exact ⟨_, .merge hg' (.saved h1 (hpool h2 hr) hret .ok), noVoxcut _ hx⟩

/-- The whole script on two disks that differ in its outputs at most. -/
theorem script_transfer {lib : GL F} {load : Bytes → Option (List (Tri (Vec F)))} {workers : Nat} {post : List (List Bytes)}
    (hpost : post = [] ∨ ∃ p, post = [mergeWords p]) {d0 : Disk} {vs : List (List Bytes)} :
    ∀ {d e d' : Disk}, (∀ w ∈ vs, CutShape w) → SameBin d0 d → SameBin d0 e → (∀ n, e n = d n ∨ Outs F (vs ++ post) d0 n) →
    ScriptRun (GoodLine lib load workers) e (vs ++ post) d' → ScriptRun (GoodLine lib load workers) d (vs ++ post) d' := by
  induction vs with
  | nil =>
    intro d e d' _ hbd hbe hde h
    rw [List.nil_append] at h hde ⊢
    rcases hpost with rfl | ⟨p, rfl⟩
    · cases h
      have : d = e := by
        funext n
        rcases hde n with h | ⟨o, files, h, -⟩ | ⟨p, h, -⟩
        · exact h.symm
        · exact (List.not_mem_nil h).elim
        · exact (List.not_mem_nil h).elim
      subst this
      exact .nil
    · cases h with
      | cons h hr =>
        cases hr
        refine .cons (goodMerge_transfer ?_ h) .nil
        intro n hn
        rcases hde n with h | ⟨o, files, h, -⟩ | ⟨q, h, h'⟩
        · exact h
        · rw [List.mem_singleton] at h
          unfold mergeWords at h
          injection h with h _
          exact absurd h (by decide)
        · rw [List.mem_singleton] at h
          unfold mergeWords at h
          injection h with _ h
          injection h with _ h
          injection h with _ h
          injection h with h _
          subst h
          exact absurd h' hn
  | cons w vs ih =>
    intro d e d' hs hbd hbe hde h
    rw [List.cons_append] at h hde ⊢
    have hs' : ∀ w ∈ vs, CutShape w := fun v hv => hs v (by simp [hv])
    cases h with
    | @cons _ _ e1 _ _ h hr =>
      rcases hs w (by simp) with hw | ⟨x, files, hw, hf⟩
      · subst hw
        have := goodLine_comment h
        subst this
        refine .cons ⟨.done, .comment (by decide), fun h => nomatch h⟩ (ih hs' hbd hbe ?_ hr)
        intro n
        rcases hde n with h | ⟨o, files, h, h1⟩ | ⟨q, h, h'⟩
        · exact Or.inl h
        · rcases List.mem_cons.mp h with h | h
          · injection h with h _
            exact absurd h (by decide)
          · exact Or.inr (Or.inl ⟨o, files, h, h1⟩)
        · rcases List.mem_cons.mp h with h | h
          · unfold mergeWords at h
            injection h with h _
            exact absurd h (by decide)
          · exact Or.inr (Or.inr ⟨q, h, h'⟩)
      · subst hw
        have ho : x ++ ascii ".stl" ≠ [] := by
          intro h
          have := congrArg List.length h
          rw [List.length_append] at this
          have h4 : (ascii ".stl").length = 4 := by decide
          rw [h4] at this
          simp at this
        have ced : cutModel (F := F) e (stlFlags (x ++ ascii ".stl") files) = cutModel (F := F) d (stlFlags (x ++ ascii ".stl") files) := by
          rw [cutModel_same hbe hf, cutModel_same hbd hf]
        -- what remains different afterwards
        have later : ∀ n, (Outs F ((ascii "voxcut" :: ascii "-ostl" :: (x ++ ascii ".stl") :: files) :: (vs ++ post)) d0 n) →
            (n = x ++ ascii ".stl" ∧ cutModel (F := F) d0 (stlFlags (x ++ ascii ".stl") files) ≠ none) ∨ Outs F (vs ++ post) d0 n := by
          rintro n (⟨o, fs, h, h1, h2⟩ | ⟨q, h, h'⟩)
          · rcases List.mem_cons.mp h with h | h
            · injection h with _ h
              injection h with _ h
              injection h with h3 h4
              subst h3 h4
              exact Or.inl ⟨h1, h2⟩
            · exact Or.inr (Or.inl ⟨o, fs, h, h1, h2⟩)
          · rcases List.mem_cons.mp h with h | h
            · unfold mergeWords at h
              injection h with h _
              exact absurd h (by decide)
            · exact Or.inr (Or.inr ⟨q, h, h'⟩)
        rcases goodLine_voxcut ho h with ⟨hn, rfl⟩ | ⟨b, tris, hb, ht, rfl⟩
        · have hn' := hn
          rw [ced] at hn'
          refine .cons ⟨.fatal, .voxcut (.fatal hn'), fun _ => ⟨_, files, rfl, hn'⟩⟩ (ih hs' hbd hbe ?_ hr)
          intro n
          rcases hde n with h | h
          · exact Or.inl h
          · rcases later n h with ⟨-, h⟩ | h
            · rw [cutModel_same hbe hf] at hn
              exact absurd hn h
            · exact Or.inr h
        · rw [ced] at hb
          refine .cons (d' := put d (x ++ ascii ".stl") (lib.stl tris)) ⟨_, .voxcut (.last (env := ⟨true, [], true⟩) (env2 := ⟨true, [], true⟩)
            hb rfl (List.Perm.refl _) rfl (.cubes ho rfl ht .ok)), fun h => nomatch h⟩
            (ih hs' (sameBin_trans hbd (put_stl_bin _ _ _)) (sameBin_trans hbe (put_stl_bin _ _ _)) ?_ hr)
          intro n
          by_cases hn : n = x ++ ascii ".stl"
          · left
            unfold put
            rw [if_pos hn, if_pos hn]
          · rw [put_get_other hn, put_get_other hn]
            rcases hde n with h | h
            · exact Or.inl h
            · rcases later n h with ⟨h, -⟩ | h
              · exact absurd h hn
              · exact Or.inr h

/-- **C127.** Start the script of a successful stldice any number of times, each time killed at any moment or with any of
    its commands failing, and then let it run once undisturbed.  The directories this can leave are exactly those that
    one undisturbed run alone can leave. -/
theorem script_run_again {load : Bytes → Option (Mesh F)} {bbox : Mesh F → Box F} {env : Bytes → Key → FileEnv}
    {fl : DiceFlags F} {fs fs' : FS} {out : Bytes} (h : DiceCmd load bbox env fl fs out fs' .done)
    (hp : ∀ a ∈ fl.args, Plain a) (h0 : 0 ≤ fl.dim ∧ 0 ≤ fl.nx ∧ 0 ≤ fl.ny ∧ 0 ≤ fl.nz)
    {lib : GL F} {loadTris : Bytes → Option (List (Tri (Vec F)))} {workers : Nat} {d : Disk}
    (hd : EarlierRuns lib loadTris workers (shellWords out) fs'.get d) (d' : Disk) :
    ScriptRun (GoodLine lib loadTris workers) d (shellWords out) d' ↔
      ScriptRun (GoodLine lib loadTris workers) fs'.get (shellWords out) d' := by
  obtain ⟨tiles, htm, -, rfl⟩ := (dice_script h).2 rfl
  have nn : ∀ t ∈ tiles, 0 ≤ t.X ∧ 0 ≤ t.Y ∧ 0 ≤ t.Z := by
    intro t ht
    have := ((htm t).mp ht).1
    unfold InDims at this
    omega
  rw [script_lines hp h0 nn] at hd ⊢
  generalize hpo : (if 1 < tiles.length then [[ascii "merge-stl", ascii "-f", ascii "-prefix", outName fl]] else [] : List (List Bytes)) = post at hd ⊢
  have hpost : post = [] ∨ ∃ p, post = [mergeWords p] := by
    rw [← hpo]
    split
    · exact Or.inr ⟨_, rfl⟩
    · exact Or.inl rfl
  have hvs : ∀ w ∈ [[ascii "#!/bin/bash", ascii "-x"]] ++ tiles.map (cutLine fl), CutShape w := by
    intro w hw
    rcases List.mem_append.mp hw with hw | hw
    · rw [List.mem_singleton] at hw
      exact Or.inl hw
    · obtain ⟨t, -, rfl⟩ := List.mem_map.mp hw
      refine Or.inr ⟨tileName (outName fl) t, fl.args.map fun a => tileBin fl a t, rfl, ?_⟩
      intro f hf
      obtain ⟨a, -, rfl⟩ := List.mem_map.mp hf
      exact ⟨_, rfl⟩
  have hall : ∀ w ∈ [[ascii "#!/bin/bash", ascii "-x"]] ++ tiles.map (cutLine fl) ++ post, CutShape w ∨ ∃ p, w = mergeWords p := by
    intro w hw
    rcases List.mem_append.mp hw with hw | hw
    · exact Or.inl (hvs w hw)
    · rcases hpost with rfl | ⟨p, rfl⟩
      · exact (List.not_mem_nil hw).elim
      · exact Or.inr ⟨p, List.mem_singleton.mp hw⟩
  obtain ⟨hb, hc⟩ := earlier_changes hall hd
  have hr : SameBin fs'.get fs'.get := fun y => rfl
  exact ⟨script_transfer hpost hvs hr hb hc, script_transfer hpost hvs hb hr (fun n => (hc n).imp Eq.symm id)⟩

/-- **C127.** What such runs leave alone: every file that is not an STL file of the job, in particular all binvox files. -/
theorem script_killed_keeps {load : Bytes → Option (Mesh F)} {bbox : Mesh F → Box F} {env : Bytes → Key → FileEnv}
    {fl : DiceFlags F} {fs fs' : FS} {out : Bytes} (h : DiceCmd load bbox env fl fs out fs' .done)
    (hp : ∀ a ∈ fl.args, Plain a) (h0 : 0 ≤ fl.dim ∧ 0 ≤ fl.nx ∧ 0 ≤ fl.ny ∧ 0 ≤ fl.nz)
    {lib : GL F} {loadTris : Bytes → Option (List (Tri (Vec F)))} {workers : Nat} {d : Disk}
    (hd : EarlierRuns lib loadTris workers (shellWords out) fs'.get d) {n : Bytes}
    (hn : n ≠ outName fl ++ ascii ".stl") (hnt : ∀ t, InDims fl.nx fl.ny fl.nz t → n ≠ tileStl fl t) : d n = fs'.get n := by
  obtain ⟨tiles, htm, -, rfl⟩ := (dice_script h).2 rfl
  have nn : ∀ t ∈ tiles, 0 ≤ t.X ∧ 0 ≤ t.Y ∧ 0 ≤ t.Z := by
    intro t ht
    have := ((htm t).mp ht).1
    unfold InDims at this
    omega
  rw [script_lines hp h0 nn] at hd
  have hall : ∀ w ∈ [[ascii "#!/bin/bash", ascii "-x"]] ++ tiles.map (cutLine fl) ++
      (if 1 < tiles.length then [[ascii "merge-stl", ascii "-f", ascii "-prefix", outName fl]] else []),
      (w = [ascii "#!/bin/bash", ascii "-x"] ∨ ∃ t ∈ tiles, w = cutLine fl t) ∨ w = mergeWords (outName fl) := by
    intro w hw
    rcases List.mem_append.mp hw with hw | hw
    · rcases List.mem_append.mp hw with hw | hw
      · exact Or.inl (Or.inl (List.mem_singleton.mp hw))
      · obtain ⟨t, ht, rfl⟩ := List.mem_map.mp hw
        exact Or.inl (Or.inr ⟨t, ht, rfl⟩)
    · split at hw
      · exact Or.inr (List.mem_singleton.mp hw)
      · exact (List.not_mem_nil hw).elim
  have hshape : ∀ w ∈ [[ascii "#!/bin/bash", ascii "-x"]] ++ tiles.map (cutLine fl) ++
      (if 1 < tiles.length then [[ascii "merge-stl", ascii "-f", ascii "-prefix", outName fl]] else []),
      CutShape w ∨ ∃ p, w = mergeWords p := by
    intro w hw
    rcases hall w hw with (h | ⟨t, -, rfl⟩) | h
    · exact Or.inl (Or.inl h)
    · refine Or.inl (Or.inr ⟨tileName (outName fl) t, fl.args.map fun a => tileBin fl a t, rfl, ?_⟩)
      intro f hf
      obtain ⟨a, -, rfl⟩ := List.mem_map.mp hf
      exact ⟨_, rfl⟩
    · exact Or.inr ⟨_, h⟩
  rcases (earlier_changes hshape hd).2 n with e | ⟨o, files, h1, h2, -⟩ | ⟨p, h1, h2⟩
  · exact e
  · exfalso
    rcases hall _ h1 with (h | ⟨t, ht, h⟩) | h
    · injection h with h _
      exact absurd h (by decide)
    · unfold cutLine at h
      injection h with _ h
      injection h with _ h
      injection h with h _
      exact hnt t ((htm t).mp ht).1 (h2.trans h)
    · unfold mergeWords at h
      injection h with h _
      exact absurd h (by decide)
  · exfalso
    rcases hall _ h1 with (h | ⟨t, ht, h⟩) | h
    · unfold mergeWords at h
      injection h with h _
      exact absurd h (by decide)
    · unfold cutLine mergeWords at h
      injection h with h _
      exact absurd h (by decide)
    · unfold mergeWords at h
      injection h with _ h
      injection h with _ h
      injection h with _ h
      injection h with h _
      exact hn (by rw [h2, h])

/-- A file one line writes can be cut off anywhere. -/
theorem line_kill {lib : GL F} {load : Bytes → Option (List (Tri (Vec F)))} {workers : Nat} {d d' : Disk} {ws : List Bytes}
    (h : AnyLine lib load workers d ws d') (hs : CutShape ws ∨ ∃ p, ws = mergeWords p) {n c : Bytes} (hc : d' n = some c)
    (hn : d n ≠ some c) {q : Bytes} (hq : q <+: c) :
    ∃ d'', AnyLine lib load workers d ws d'' ∧ d'' n = some q := by
  have self : ∀ o b : Bytes, put d o b n = some c → n = o ∧ b = c := by
    intro o b hb
    unfold put at hb
    by_cases h1 : n = o
    · rw [if_pos h1] at hb
      injection hb with hb
      exact ⟨h1, hb⟩
    · rw [if_neg h1] at hb
      exact absurd hb hn
  have here : ∀ o b : Bytes, n = o → put d o b n = some b := by
    intro o b h1
    unfold put
    rw [if_pos h1]
  obtain ⟨e, h⟩ := h
  cases h with
  | comment h => exact absurd hc hn
  | @voxcut o files d' e h =>
    cases h with
    | fatal h => exact absurd hc hn
    | @binvoxFails b env h h1 =>
      have e1 : (outBinvox (stlFlags o files) b env d).1 = d := by unfold outBinvox stlFlags; simp
      rw [e1] at hc
      exact absurd hc hn
    | @voxFails b env m env2 h h1 hm h2 =>
      have e1 : (outVox (stlFlags o files) m env2 (outBinvox (stlFlags o files) b env d).1).1 = d := by
        unfold outVox outBinvox stlFlags; simp
      rw [e1] at hc
      exact absurd hc hn
    | @last b env m env2 _ ok h h1 hm h2 h3 =>
      have e1 : (outVox (stlFlags o files) m env2 (outBinvox (stlFlags o files) b env d).1).1 = d := by
        unfold outVox outBinvox stlFlags; simp
      rw [e1] at h3
      have cut : ∀ tris, o ≠ [] → ToMeshRun lib b tris → q <+: lib.stl tris → n = o →
          ∃ d'', AnyLine lib load workers d (ascii "voxcut" :: ascii "-ostl" :: o :: files) d'' ∧ d'' n = some q := by
        intro tris ho ht hq' hno
        exact ⟨put d o q, ⟨_, .voxcut (.last (env := ⟨true, [], true⟩) (env2 := ⟨true, [], true⟩) h rfl (List.Perm.refl _) rfl
          (.cubes ho rfl ht (.part hq')))⟩, here _ _ hno⟩
      cases h3 with
      | none h => exact absurd hc hn
      | manifold _ hm _ _ => cases hm
      | cubes ho _ ht hs =>
        cases hs with
        | ok =>
          obtain ⟨h1, rfl⟩ := self _ _ hc
          exact cut _ ho ht hq h1
        | notCreated => exact absurd hc hn
        | @part p hp =>
          obtain ⟨h1, rfl⟩ := self _ _ hc
          exact cut _ ho ht (hq.trans hp) h1
  | @merge p names d' e hg h =>
    cases h with
    | refused h => exact absurd hc hn
    | failed h hr hret => exact absurd hc hn
    | nilNotCreated h hr hret => exact absurd hc hn
    | nilMesh h hr hret =>
      obtain ⟨h1, rfl⟩ := self _ _ hc
      have : q = [] := List.prefix_nil.mp hq
      subst this
      exact ⟨_, ⟨_, .merge hg (.nilMesh h hr hret)⟩, hc⟩
    | saved h hr hret hs =>
      cases hs with
      | ok =>
        obtain ⟨h1, rfl⟩ := self _ _ hc
        exact ⟨_, ⟨_, .merge hg (.saved h hr hret (.part hq))⟩, here _ _ h1⟩
      | notCreated => exact absurd hc hn
      | @part p' hp =>
        obtain ⟨h1, rfl⟩ := self _ _ hc
        exact ⟨_, ⟨_, .merge hg (.saved h hr hret (.part (hq.trans hp)))⟩, here _ _ h1⟩

omit [GoFloat F] [FloatText F] in
theorem scriptRun_mono {s s' : Disk → List Bytes → Disk → Prop} (hss : ∀ d w d', s d w d' → s' d w d') {l : List (List Bytes)} :
    ∀ {d d' : Disk}, ScriptRun s d l d' → ScriptRun s' d l d' := by
  induction l with
  | nil => intro d d' h; cases h; exact .nil
  | cons w l ih =>
    intro d d' h
    cases h with
    | cons h hr => exact .cons (hss _ _ _ h) (ih hr)

/-- **C127.** Such kills do damage: whatever file a run of the script writes, a kill can leave with any beginning of its content. -/
theorem script_kill_possible {lib : GL F} {load : Bytes → Option (List (Tri (Vec F)))} {workers : Nat} {lines : List (List Bytes)} :
    ∀ {d d' : Disk}, (∀ w ∈ lines, CutShape w ∨ ∃ p, w = mergeWords p) → ScriptRun (GoodLine lib load workers) d lines d' →
    ∀ {n c q : Bytes}, d' n = some c → d n ≠ some c → q <+: c →
    ∃ d'', CutShort lib load workers lines d d'' ∧ d'' n = some q := by
  induction lines with
  | nil => intro d d' _ h n c q h1 h2 _; cases h; exact absurd h1 h2
  | cons w l ih =>
    intro d d' hs h n c q h1 h2 hq
    cases h with
    | @cons _ _ d1 _ _ h hr =>
      have hany : AnyLine lib load workers d w d1 := by
        obtain ⟨e, he, -⟩ := h
        exact ⟨e, he⟩
      by_cases h3 : d1 n = some c
      · obtain ⟨d'', ha, hd⟩ := line_kill hany (hs w (by simp)) h3 h2 hq
        exact ⟨d'', ⟨[w], l, rfl, .cons ha .nil⟩, hd⟩
      · obtain ⟨d'', ⟨run, rest, e, hr'⟩, hd⟩ := ih (fun v hv => hs v (by simp [hv])) hr h1 h3 hq
        exact ⟨d'', ⟨w :: run, rest, by rw [e]; rfl, .cons hany hr'⟩, hd⟩

/-- Every line of the script of a successful stldice is the comment, a voxcut line or the merge line. -/
theorem script_shape {load : Bytes → Option (Mesh F)} {bbox : Mesh F → Box F} {env : Bytes → Key → FileEnv}
    {fl : DiceFlags F} {fs fs' : FS} {out : Bytes} (h : DiceCmd load bbox env fl fs out fs' .done)
    (hp : ∀ a ∈ fl.args, Plain a) (h0 : 0 ≤ fl.dim ∧ 0 ≤ fl.nx ∧ 0 ≤ fl.ny ∧ 0 ≤ fl.nz) :
    ∀ w ∈ shellWords out, CutShape w ∨ ∃ p, w = mergeWords p := by
  obtain ⟨tiles, htm, -, rfl⟩ := (dice_script h).2 rfl
  have nn : ∀ t ∈ tiles, 0 ≤ t.X ∧ 0 ≤ t.Y ∧ 0 ≤ t.Z := by
    intro t ht
    have := ((htm t).mp ht).1
    unfold InDims at this
    omega
  rw [script_lines hp h0 nn]
  intro w hw
  rcases List.mem_append.mp hw with hw | hw
  · rcases List.mem_append.mp hw with hw | hw
    · exact Or.inl (Or.inl (List.mem_singleton.mp hw))
    · obtain ⟨t, ht, rfl⟩ := List.mem_map.mp hw
      refine Or.inl (Or.inr ⟨tileName (outName fl) t, fl.args.map fun a => tileBin fl a t, rfl, ?_⟩)
      intro f hf
      obtain ⟨a, -, rfl⟩ := List.mem_map.mp hf
      exact ⟨_, rfl⟩
  · split at hw
    · exact Or.inr ⟨_, List.mem_singleton.mp hw⟩
    · exact (List.not_mem_nil hw).elim

/-- **C127.** The kills do damage: whatever file a run of the script writes, a kill can leave with any beginning of its content. -/
theorem script_torn {load : Bytes → Option (Mesh F)} {bbox : Mesh F → Box F} {env : Bytes → Key → FileEnv}
    {fl : DiceFlags F} {fs fs' : FS} {out : Bytes} (h : DiceCmd load bbox env fl fs out fs' .done)
    (hp : ∀ a ∈ fl.args, Plain a) (h0 : 0 ≤ fl.dim ∧ 0 ≤ fl.nx ∧ 0 ≤ fl.ny ∧ 0 ≤ fl.nz)
    {lib : GL F} {loadTris : Bytes → Option (List (Tri (Vec F)))} {workers : Nat} {d' : Disk}
    (hs : ScriptRun (GoodLine lib loadTris workers) fs'.get (shellWords out) d') {n c q : Bytes} (hc : d' n = some c)
    (hn : fs'.get n ≠ some c) (hq : q <+: c) :
    ∃ d, CutShort lib loadTris workers (shellWords out) fs'.get d ∧ d n = some q :=
  script_kill_possible (script_shape h hp h0) hs hc hn hq

end

/-- Two walls diced, the script killed as it creates the file of the first tile: the file is empty; the next run, killed before its first line
    or not, and then an undisturbed one give what the undisturbed one gives alone, with that file whole. -/
example [FloatText ℚ] [LawfulFloatText ℚ] (mB : Mesh ℚ) (bits : ℚ → Nat) (f32 : Nat → ℚ) (parseF : Bytes → ℚ) :
    ∃ (load : Bytes → Option (Mesh ℚ)) (out : Bytes) (fs' : FS) (d' torn : Disk) (lib : GL ℚ)
      (loadTris : Bytes → Option (List (Tri (Vec ℚ)))) (c : Bytes),
      DiceCmd load (fun _ => ⟨⟨0, 0, 0⟩, ⟨0, 0, 0⟩⟩) (fun _ _ => ⟨true, [], true⟩) exFlags exDir out fs' .done ∧
      EarlierRuns lib loadTris 3 (shellWords out) fs'.get torn ∧
      torn (tileStl exFlags ⟨0, 0, 0⟩) = some [] ∧ c.length ≠ 0 ∧ d' (tileStl exFlags ⟨0, 0, 0⟩) = some c ∧
      ScriptRun (GoodLine lib loadTris 3) torn (shellWords out) d' ∧
      torn (tileBin exFlags (ascii "a.stl") ⟨0, 0, 0⟩) = fs'.get (tileBin exFlags (ascii "a.stl") ⟨0, 0, 0⟩) := by
  obtain ⟨load, mesh, whole, out, fs', d', loadTris, lib, hA, hB, job, h, hlib, hload, hs, hsmall⟩ :=
    exJob_runs wallMesh ⟨fun _ => wallMesh.heap 0, []⟩ bits f32 parseF
  obtain ⟨m, hm, -⟩ := dice_then_script exEnv_good job h hlib hload hs hsmall
  obtain ⟨-, hsame⟩ := diceCmd_tiles exEnv_good job h
  have hz : ¬ zeroDim (wholeModel exLayout (⟨⟨0, 0, 0⟩, ⟨4, 4, 4⟩⟩ : Box ℚ) 2 1 1) := by unfold zeroDim; decide
  have left : TileLeft exLayout (ascii "a.stl") [ascii "b.stl"] whole ⟨0, 0, 0⟩ ⟨1, 1, 1⟩ := by
    refine ⟨by unfold InDims; decide, ?_, ?_⟩
    · have hw := job.voxelized (ascii "a.stl") (by decide)
      rw [hA] at hw
      obtain ⟨c, hc, -, -, hk⟩ := voxelize_exact _ _ hz _ hw
      cases hc
      exact (hk ⟨1, 1, 1⟩).mpr ⟨by decide, by decide, ((sliceRows_mem (wholeModel exLayout (⟨⟨0, 0, 0⟩, ⟨4, 4, 4⟩⟩ : Box ℚ) 2 1 1) wallMesh 1
        ⟨1, 1, 1⟩).mp (by decide +kernel)).2⟩
    · intro c hc
      rw [List.mem_singleton] at hc
      subst hc
      have hw := job.voxelized (ascii "b.stl") (by decide)
      rw [hB] at hw
      obtain ⟨c, hc, -, -, hk⟩ := voxelize_exact _ _ hz _ hw
      cases hc
      intro hv
      have := ((hk ⟨1, 1, 1⟩).mp hv).2.2
      exact absurd ((sliceRows_mem _ _ 1 ⟨1, 1, 1⟩).mpr ⟨rfl, this⟩) (by decide +kernel)
  have i0 : InDims 2 1 1 ⟨0, 0, 0⟩ := by unfold InDims; decide
  have hc : d' (tileStl exFlags ⟨0, 0, 0⟩) = some (lib.stl (m ⟨0, 0, 0⟩)) := by
    rcases (hm _ i0).1 with e | ⟨-, -, e⟩
    · exact e
    · exact absurd left (e _)
  have hno : fs'.get (tileStl exFlags ⟨0, 0, 0⟩) = none := by
    unfold tileStl
    rw [tileName_suffix, hsame _ (fun a _ t _ => tileStl_ne_bin _ _)]
    exact job.freshStl _
  have hp : ∀ a ∈ exFlags.args, Plain a := job.plain
  have h0 : 0 ≤ exFlags.dim ∧ 0 ≤ exFlags.nx ∧ 0 ≤ exFlags.ny ∧ 0 ≤ exFlags.nz := by decide
  obtain ⟨torn, ht, hq⟩ := script_torn h hp h0 hs hc (by rw [hno]; exact nofun) (List.nil_prefix)
  have he : EarlierRuns lib loadTris 3 (shellWords out) fs'.get torn :=
    .again (.again (.none _) ht) ⟨[], _, rfl, .nil⟩
  refine ⟨load, out, fs', d', torn, lib, loadTris, _, h, he, hq, ?_, hc, (script_run_again h hp h0 he d').mpr hs, ?_⟩
  · rw [stl_length]
    omega
  · exact script_killed_keeps h hp h0 he (fun e => tileStl_ne_bin _ _ e.symm) (fun t _ e => tileStl_ne_bin _ _ e.symm)

end Cmd
end StlDice
