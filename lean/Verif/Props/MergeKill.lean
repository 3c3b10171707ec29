import Verif.Model.MergeKill
import Verif.Props.ScriptKill
import Verif.Props.CmdLines
import Verif.Props.MergeBinvoxCmd

/-! # C130: merge-stl and merge-binvox killed and run again -/

namespace StlDice
namespace Cmd
open Spec BinVOX

section Stl
variable {F : Type} {lib : GL F} {load : Bytes → Option (List (Tri (Vec F)))} {args : List Bytes} {num : Int} {p : Bytes} {force : Bool}

theorem mergeStlFlags_exit {ok : Bool} (h : Flag.parse mergeStlKind (fun _ => false) args = .exit ok) : mergeStlFlags args = none := by
  unfold mergeStlFlags
  rw [h]

/-- A start of merge-stl whose flags are understood. -/
theorem merge_stl_proc (ha : mergeStlFlags args = some (force, num, p)) {d d' : Disk} {e : Exit}
    (h : MergeStlProc lib load d args d' e) :
    ∃ names, Glob d p (ascii ".stl") names ∧
      (0 ≤ num ∧ MergeStlRun (fun n => (d n).bind load) lib d p force num.toNat names d' e ∨
        num < 0 ∧ d' = d ∧ e = (if mergeInputs (p ++ ascii ".stl") force names = none then .fatal else .panic)) := by
  cases h with
  | usage h => rw [mergeStlFlags_exit h] at ha; cases ha
  | @run force' num' p' names d' e h hn hg hr =>
    rw [ha] at h
    injection h with h
    injection h with h1 h
    injection h with h2 h3
    subst h1 h2 h3
    exact ⟨names, hg, Or.inl ⟨hn, hr⟩⟩
  | @negative force' num' p' names h hn hg =>
    rw [ha] at h
    injection h with h
    injection h with h1 h
    injection h with h2 h3
    subst h1 h2 h3
    exact ⟨names, hg, Or.inr ⟨hn, rfl, rfl⟩⟩

/-- **C130.** However often merge-stl was started before, and however each start ended, no file but its output changed. -/
theorem merge_stl_tries_others (ha : mergeStlFlags args = some (force, num, p)) {d d₁ : Disk}
    (h : MergeStlTries lib load args d d₁) {n : Bytes} (hn : n ≠ p ++ ascii ".stl") : d₁ n = d n := by
  induction h with
  | none => rfl
  | ran _ h ih =>
    rw [← ih]
    obtain ⟨names, hg, ⟨-, hr⟩ | ⟨-, rfl, -⟩⟩ := merge_stl_proc ha h
    · exact (merge_stl_touches hr).1 n hn
    · rfl
  | killed _ hf _ _ _ _ _ _ ih =>
    rw [ha] at hf
    injection hf with hf
    injection hf with _ hf
    injection hf with _ hf
    subst hf
    rw [put_other _ _ hn, ih]

/-- **C130.** Without `-f`, merge-stl changes nothing and fails as soon as its output exists, whatever the output holds. -/
theorem merge_stl_unforced (ha : mergeStlFlags args = some (false, num, p)) {d d' : Disk} {e : Exit}
    (hd : d (p ++ ascii ".stl") ≠ none) (h : MergeStlProc lib load d args d' e) : d' = d ∧ e = .fatal := by
  obtain ⟨names, hg, h⟩ := merge_stl_proc ha h
  have hm : p ++ ascii ".stl" ∈ names := (hg.2 _).mpr ⟨hd, [], by simp, by simp⟩
  rcases h with ⟨-, hr⟩ | ⟨-, rfl, rfl⟩
  · exact (merge_stl_touches hr).2 (Or.inl ⟨hm, rfl⟩)
  · rw [if_pos ((mergeInputs_exact _ _ _).1.mpr ⟨hm, rfl⟩)]
    exact ⟨rfl, rfl⟩

/-- **C130.** So without `-f` a kill is final: if a run can leave the output `c`, a kill can leave any beginning of it,
    and then no start without `-f`, run to its end or killed, changes that or ends well. -/
theorem merge_stl_stuck (ha : mergeStlFlags args = some (false, num, p)) {d d' : Disk} (h : MergeStlProc lib load d args d' .done)
    {c q : Bytes} (hc : d' (p ++ ascii ".stl") = some c) (hq : q <+: c) :
    ∃ d₁, MergeStlTries lib load args d d₁ ∧ d₁ (p ++ ascii ".stl") = some q ∧ (∀ d₂, MergeStlTries lib load args d₁ d₂ → d₂ = d₁) ∧
      ∀ d₂ e, MergeStlProc lib load d₁ args d₂ e → e = .fatal := by
  obtain ⟨names, hg, h⟩ := merge_stl_proc ha h
  rcases h with ⟨hn, hr⟩ | ⟨hn, rfl, he⟩
  swap
  · split at he <;> cases he
  obtain ⟨files, s, tris, hin, hp, hret, hcq⟩ : ∃ files s tris, mergeInputs (p ++ ascii ".stl") false names = some files ∧
      PoolReach (fun n => (d n).bind load) num.toNat (Pool.init files) s ∧ s.returned = some (some (some tris)) ∧ c = lib.stl tris := by
    generalize he : Exit.done = e at hr
    cases hr with
    | refused h => cases he
    | failed h hr hret => cases he
    | nilNotCreated h hr hret => cases he
    | nilMesh h hr hret => cases he
    | @saved files s tris d' ok h hr hret hs =>
      cases ok with
      | false => cases he
      | true =>
        refine ⟨files, s, tris, h, hr, hret, ?_⟩
        rw [save_ok hs, put_self] at hc
        exact (Option.some.inj hc).symm
  subst hcq
  have hsome : put d (p ++ ascii ".stl") q (p ++ ascii ".stl") ≠ none := by rw [put_self]; exact nofun
  refine ⟨_, .killed (.none d) ha hn hg hin hp hret hq, put_self _ _ _, ?_, fun d₂ e h => (merge_stl_unforced ha hsome h).2⟩
  intro d₂ h₂
  generalize hd0 : put d (p ++ ascii ".stl") q = d0 at h₂ hsome
  clear hd0
  induction h₂ with
  | none => rfl
  | ran _ h ih =>
    have := ih
    subst this
    exact (merge_stl_unforced ha hsome h).1
  | killed _ hf _ hg hin _ _ _ ih =>
    exfalso
    have := ih
    subst this
    rw [ha] at hf
    injection hf with hf
    injection hf with h1 hf
    injection hf with h2 h3
    subst h1 h2 h3
    rw [(mergeInputs_exact _ _ _).1.mpr ⟨(hg.2 _).mpr ⟨hsome, [], by simp, by simp⟩, rfl⟩] at hin
    cases hin

end Stl

section StlForced
variable {F : Type} [GoFloat F] [FloatText F] {lib : GL F} {load : Bytes → Option (List (Tri (Vec F)))} {args : List Bytes} {num : Int} {p : Bytes}

theorem merge_stl_move (ha : mergeStlFlags args = some (true, num, p)) {d e e' : Disk} (hde : ∀ n, n ≠ p ++ ascii ".stl" → e n = d n)
    (h : MergeStlProc lib load e args e' .done) : MergeStlProc lib load d args e' .done := by
  obtain ⟨names, hg, h⟩ := merge_stl_proc ha h
  rcases h with ⟨hn, hr⟩ | ⟨hn, rfl, he⟩
  swap
  · split at he <;> cases he
  obtain ⟨names', x, hg', hm, hx⟩ := goodLine_merge (goodMerge_transfer hde ⟨.done, .merge hg hr, nofun⟩)
  obtain ⟨-, -, order, -, hc⟩ := merge_stl_done hr
  have : x = .done := by
    cases x with
    | done => rfl
    | fatal => exact absurd rfl hx
    | panic =>
      exfalso
      generalize hp : Exit.panic = y at hm
      cases hm with
      | refused h => cases hp
      | failed h hr hret => cases hp
      | nilNotCreated h hr hret => cases hp
      | @saved files s tris d' ok h hr hret hs => cases ok <;> cases hp
      | nilMesh h hr hret =>
        rw [put_self] at hc
        injection hc with hc
        have := stl_length lib (allTriangles (fun n => (e n).bind load) order)
        rw [← hc] at this
        simp only [List.length_nil] at this
        omega
  subst this
  exact .run ha hn hg' hm

/-- **C130.** With `-f`, merge-stl can be killed, and can fail, any number of times: a run that then ends well leaves the
    files that a run on the original files can leave, all of them, and each of those can be left. -/
theorem merge_stl_run_again (ha : mergeStlFlags args = some (true, num, p)) {d d₁ d' : Disk} (h : MergeStlTries lib load args d d₁) :
    MergeStlProc lib load d₁ args d' .done ↔ MergeStlProc lib load d args d' .done :=
  ⟨merge_stl_move ha fun _ hn => merge_stl_tries_others ha h hn,
    merge_stl_move ha fun _ hn => (merge_stl_tries_others ha h hn).symm⟩

end StlForced

section Binvox
variable {F : Type} [GoFloat F] [FloatText F] {args : List Bytes} {p : Bytes} {force : Bool} {sch : Bytes → AddSched}

theorem merge_binvox_proc (ha : mergeBinvoxFlags args = some (force, p)) {d d' : Disk} {e : Exit}
    (h : MergeBinvoxProc F d sch args d' e) :
    ∃ names, Glob d p (ascii ".binvox") names ∧ MergeBinvoxRun (F := F) d sch p force names d' e := by
  cases h with
  | usage h =>
    unfold mergeBinvoxFlags at ha
    rw [h] at ha
    cases ha
  | @run force' p' names d' e h hg hr =>
    rw [ha] at h
    injection h with h
    injection h with h1 h2
    subst h1 h2
    exact ⟨names, hg, hr⟩

/-- **C130.** However often merge-binvox was started before, and however each start ended, no file but its output changed. -/
theorem merge_binvox_tries_others (ha : mergeBinvoxFlags args = some (force, p)) {d d₁ : Disk}
    (h : MergeBinvoxTries F args d d₁) {n : Bytes} (hn : n ≠ p ++ ascii ".vsh") : d₁ n = d n := by
  induction h with
  | none => rfl
  | ran _ h ih =>
    rw [← ih]
    obtain ⟨names, hg, hr⟩ := merge_binvox_proc ha h
    exact (merge_binvox_touches hr).1 n hn
  | killed _ hf _ _ _ _ ih =>
    rw [ha] at hf
    injection hf with hf
    injection hf with _ hf
    subst hf
    rw [put_other _ _ hn, ih]

theorem binvox_ne_vsh (x y : Bytes) : x ++ ascii ".binvox" ≠ y ++ ascii ".vsh" := by
  intro h
  have e1 : ascii ".binvox" = ascii ".binvo" ++ [120] := by decide
  have e2 : ascii ".vsh" = ascii ".vs" ++ [104] := by decide
  rw [e1, e2, ← List.append_assoc, ← List.append_assoc] at h
  have := (List.append_inj' h rfl).2
  revert this
  decide

theorem merge_binvox_move (ha : mergeBinvoxFlags args = some (force, p)) {d e e' : Disk} (hde : ∀ n, n ≠ p ++ ascii ".vsh" → e n = d n)
    (h : MergeBinvoxProc F e sch args e' .done) : MergeBinvoxProc F d sch args e' .done := by
  obtain ⟨names, hg, hr⟩ := merge_binvox_proc ha h
  have hne : ∀ n ∈ names, n ≠ p ++ ascii ".vsh" := by
    intro n hn
    obtain ⟨-, mid, -, rfl⟩ := (hg.2 n).mp hn
    exact binvox_ne_vsh _ _
  have hg' : Glob d p (ascii ".binvox") names := by
    refine ⟨hg.1, fun n => (hg.2 n).trans (and_congr_left ?_)⟩
    rintro ⟨mid, -, rfl⟩
    rw [hde _ (binvox_ne_vsh _ _)]
  have hputs : ∀ c, put e (p ++ ascii ".vsh") c = put d (p ++ ascii ".vsh") c := by
    intro c
    funext n
    unfold put
    by_cases hn : n = p ++ ascii ".vsh"
    · rw [if_pos hn, if_pos hn]
    · rw [if_neg hn, if_neg hn, hde n hn]
  clear h
  generalize he : Exit.done = x at hr
  cases hr with
  | refused h => cases he
  | failed h hm => cases he
  | nilShell created h hm => cases created <;> cases he
  | @written files vs env h hm =>
    have hsub : ∀ f ∈ files, f ∈ names := by
      intro f hf
      rw [(mergeInputs_exact _ _ _).2 _ h] at hf
      exact (List.mem_filter.mp hf).1
    have hin : (files.map fun f => (sch f, BinVOX.Read (F := F) (input d f) ⟨0, 0, 0, 0, 0, 0⟩)) =
        files.map fun f => (sch f, BinVOX.Read (F := F) (input e f) ⟨0, 0, 0, 0, 0, 0⟩) := by
      refine List.map_congr_left fun f hf => ?_
      unfold input
      rw [hde f (hne f (hsub f hf))]
    have hw := MergeBinvoxRun.written (d := d) (sch := sch) (globbed := names) env h (by rw [hin]; exact hm)
    cases hok : (vs.Write env ⟨0, 0, 0, 0, 0, 0⟩).2 with
    | false => rw [hok] at he; cases he
    | true =>
      cases hc : (vs.Write env ⟨0, 0, 0, 0, 0, 0⟩).1 with
      | none =>
        exfalso
        unfold VShell.Write at hc hok
        cases hcr : env.createOk with
        | false => rw [hcr] at hok; cases hok
        | true =>
          rw [hcr] at hc
          simp only [Bool.not_true, Bool.false_eq_true, if_false] at hc
          split at hc <;> cases hc
      | some c =>
        rw [hok, hc] at hw
        refine .run ha hg' ?_
        dsimp only
        rw [hputs]
        exact hw

/-- **C130.** merge-binvox can be killed, and can fail, any number of times, with `-f` or without: a run that then ends
    well leaves the files that a run on the original files can leave, all of them, and each of those can be left. -/
theorem merge_binvox_run_again (ha : mergeBinvoxFlags args = some (force, p)) {d d₁ d' : Disk} (h : MergeBinvoxTries F args d d₁) :
    MergeBinvoxProc F d₁ sch args d' .done ↔ MergeBinvoxProc F d sch args d' .done :=
  ⟨merge_binvox_move ha fun _ hn => merge_binvox_tries_others ha h hn,
    merge_binvox_move ha fun _ hn => (merge_binvox_tries_others ha h hn).symm⟩

end Binvox

/-! ## The hypotheses are met -/

/-- Two STL files `out-1.stl` and `out-2.stl`. -/
def exTwoStl : Disk := put (put (fun _ => none) (ascii "out-1.stl") [1]) (ascii "out-2.stl") [2]

theorem exTwoStl_glob : Glob exTwoStl (ascii "out") (ascii ".stl") [ascii "out-1.stl", ascii "out-2.stl"] := by
  refine ⟨by decide, fun n => ?_⟩
  simp only [List.mem_cons, List.not_mem_nil, or_false]
  constructor
  · rintro (rfl | rfl)
    · exact ⟨by decide, ascii "-1", by decide, by decide⟩
    · exact ⟨by decide, ascii "-2", by decide, by decide⟩
  · rintro ⟨h, -⟩
    unfold exTwoStl put at h
    by_cases h2 : n = ascii "out-2.stl"
    · exact Or.inr h2
    · rw [if_neg h2] at h
      by_cases h1 : n = ascii "out-1.stl"
      · exact Or.inl h1
      · rw [if_neg h1] at h
        exact absurd rfl h

theorem exTwoStl_runs (lib : GL ℚ) (t : Tri (Vec ℚ)) (f : Bool) {args : List Bytes} (ha : mergeStlFlags args = some (f, 10, ascii "out")) :
    ∃ d', MergeStlProc lib (fun _ => some [t]) exTwoStl args d' .done := by
  obtain ⟨d', h⟩ := merge_stl_succeeds (lib := lib) (d := exTwoStl) (pre := ascii "out") (force := f) (workers := 10)
    (globbed := [ascii "out-1.stl", ascii "out-2.stl"]) (load := fun n => (exTwoStl n).bind fun _ => some [t])
    (by decide) (Or.inr (by decide)) ⟨ascii "out-1.stl", by decide, by decide⟩ (by
      intro g hg _
      simp only [List.mem_cons, List.not_mem_nil, or_false] at hg
      rcases hg with rfl | rfl <;> rfl)
  exact ⟨d', .run ha (by decide) exTwoStl_glob h⟩

/-- `merge-stl`, killed when it has created its output: without `-f` that is final, with `-f` it goes on. -/
example (lib : GL ℚ) (t : Tri (Vec ℚ)) : ∃ d₁ d' : Disk,
    MergeStlTries lib (fun _ => some [t]) [] exTwoStl d₁ ∧ d₁ (ascii "out" ++ ascii ".stl") = some [] ∧
    (∀ d₂ e, MergeStlProc lib (fun _ => some [t]) d₁ [] d₂ e → e = .fatal) ∧
    MergeStlProc lib (fun _ => some [t]) d₁ [ascii "-f", ascii "-prefix", ascii "out"] d' .done ∧
    MergeStlProc lib (fun _ => some [t]) exTwoStl [ascii "-f", ascii "-prefix", ascii "out"] d' .done := by
  have ha : mergeStlFlags [] = some (false, 10, ascii "out") := rfl
  obtain ⟨d0, h⟩ := exTwoStl_runs lib t false ha
  obtain ⟨names, hg, ⟨-, hr⟩ | ⟨hn, -⟩⟩ := merge_stl_proc ha h
  swap
  · exact absurd hn (by decide)
  obtain ⟨-, -, order, -, hc⟩ := merge_stl_done hr
  obtain ⟨d₁, h1, h2, -, h4⟩ := merge_stl_stuck ha h hc List.nil_prefix
  obtain ⟨d', h'⟩ := exTwoStl_runs lib t true (merge_line (ascii "out"))
  have hoth : ∀ n, n ≠ ascii "out" ++ ascii ".stl" → d₁ n = exTwoStl n := fun n hn => merge_stl_tries_others ha h1 hn
  exact ⟨d₁, d', h1, h2, h4, merge_stl_move (merge_line _) (fun n hn => (hoth n hn).symm) h', h'⟩

/-- The same with the kill of a start with `-f`. -/
example (lib : GL ℚ) (t : Tri (Vec ℚ)) {d₁ d' : Disk}
    (h : MergeStlTries lib (fun _ => some [t]) [ascii "-f", ascii "-prefix", ascii "out"] exTwoStl d₁)
    (h' : MergeStlProc lib (fun _ => some [t]) exTwoStl [ascii "-f", ascii "-prefix", ascii "out"] d' .done) :
    MergeStlProc lib (fun _ => some [t]) d₁ [ascii "-f", ascii "-prefix", ascii "out"] d' .done :=
  (merge_stl_run_again (merge_line _) h).mpr h'

/-- `merge-binvox` with one file, killed when it has created its output, and run again without `-f`, whatever the runtime chooses. -/
example (sch : Bytes → AddSched) : ∃ d d₁ d' : Disk, MergeBinvoxTries ℚ [] d d₁ ∧ d (ascii "out" ++ ascii ".vsh") = none ∧
    d₁ (ascii "out" ++ ascii ".vsh") = some [] ∧ MergeBinvoxProc ℚ d₁ sch [] d' .done := by
  obtain ⟨file, b, -, hr, -⟩ := input_of_write exModel (by decide) (by decide) (by decide) (by decide)
    ⟨true, [], true⟩ rfl (by simp) rfl (fun _ => none) (ascii "out.binvox")
  have ha : mergeBinvoxFlags [] = some (false, ascii "out") := rfl
  have hg : Glob (put (fun _ => none) (ascii "out.binvox") file) (ascii "out") (ascii ".binvox") [ascii "out.binvox"] := by
    refine ⟨by decide, fun n => ?_⟩
    rw [List.mem_singleton]
    constructor
    · rintro rfl
      exact ⟨by rw [put_self]; exact nofun, [], by simp, by decide⟩
    · rintro ⟨h, -⟩
      by_contra hn
      rw [put_other _ _ hn] at h
      exact h rfl
  have hin : mergeInputs (ascii "out" ++ ascii ".vsh") false [ascii "out.binvox"] = some [ascii "out.binvox"] := by decide
  obtain ⟨vs, hm⟩ : ∃ vs, VShell.Merge ([ascii "out.binvox"].map fun f => (sch f,
      BinVOX.Read (F := ℚ) (input (put (fun _ => none) (ascii "out.binvox") file) f) ⟨0, 0, 0, 0, 0, 0⟩)) = some (some vs) := by
    have hr' : BinVOX.Read (F := ℚ) (input (put (fun _ => none) (ascii "out.binvox") file) (ascii "out.binvox"))
        ⟨0, 0, 0, 0, 0, 0⟩ = some b := hr
    rw [List.map_singleton, hr']
    unfold VShell.Merge
    simp only [List.foldl_cons, List.foldl_nil, VShell.mergeStep, VShell.New]
    split
    · rw [Add_eq_nil _ _ _ rfl]
      exact ⟨_, rfl⟩
    · exact ⟨_, rfl⟩
  have hw : (vs.Write ⟨true, [], true⟩ wholeRegion).2 = true := by
    by_cases he : vs.Voxels = []
    · exact (vsh_write_reports_empty vs he _ _).mpr ⟨rfl, rfl⟩
    · exact (vsh_write_reports_iff vs he _ _).mpr ⟨rfl, rfl, fun i _ k => by simp⟩
  have hrun := MergeBinvoxRun.written (F := ℚ) (d := put (fun _ => none) (ascii "out.binvox") file) (sch := sch)
    ⟨true, [], true⟩ hin hm
  rw [show (vs.Write ⟨true, [], true⟩ ⟨0, 0, 0, 0, 0, 0⟩).2 = true from hw, if_pos rfl] at hrun
  have k : MergeBinvoxTries ℚ [] (put (fun _ => none) (ascii "out.binvox") file)
      (put (put (fun _ => none) (ascii "out.binvox") file) (ascii "out" ++ ascii ".vsh") []) :=
    .killed (sch := sch) (.none _) ha hg hin hm List.nil_prefix
  exact ⟨_, _, _, k, put_other _ _ (by decide), put_self _ _ _, (merge_binvox_run_again ha k).mpr (.run ha hg hrun)⟩

end Cmd
end StlDice
