import Verif.Props.DiceCmd

/-! # C77: running stldice again -/

namespace StlDice
namespace Cmd
open Spec BinVOX
variable {F : Type}

/-- Nothing happens when every non-empty tile has a file. -/
theorem diceLoop_idle [FloatText F] (P : Bytes) (vox : Key → BinVOX F) (env : Key → FileEnv) (ts : List Key) (fs : FS) (pf : List Bytes)
    (h : ∀ t ∈ ts, (vox t).white.length ≠ 0 → fs.get (tileFile P t) ≠ none) :
    diceLoop P vox env ts fs pf = (fs, some pf) := by
  induction ts with
  | nil => rfl
  | cons t ts ih =>
    have ih := ih fun u hu => h u (by simp [hu])
    unfold diceLoop
    by_cases h1 : fs.has (tileFile P t) = true
    · rw [if_pos h1]; exact ih
    · rw [if_neg h1]
      by_cases h2 : (vox t).white.length = 0
      · rw [if_pos h2]; exact ih
      · exact absurd (get_ne_none_has.mp (h t (by simp) h2)) h1

/-- When the tile loop returns no error, every non-empty tile has a file. -/
theorem diceLoop_covers [FloatText F] (P : Bytes) (vox : Key → BinVOX F) (env : Key → FileEnv) (ts : List Key) :
    ∀ (fs : FS) (pf : List Bytes) (fs' : FS) (pf' : List Bytes), diceLoop P vox env ts fs pf = (fs', some pf') →
      ∀ t ∈ ts, (vox t).white.length ≠ 0 → fs'.get (tileFile P t) ≠ none := by
  induction ts with
  | nil => intro _ _ _ _ _ t ht; exact (List.not_mem_nil ht).elim
  | cons u ts ih =>
    intro fs pf fs' pf' h t ht hne
    have keep : ∀ {gs pg}, diceLoop P vox env ts gs pg = (fs', some pf') → gs.get (tileFile P u) ≠ none →
        fs'.get (tileFile P u) ≠ none := by
      intro gs pg hd hg
      obtain ⟨c, hc⟩ := Option.ne_none_iff_exists'.mp hg
      have := dice_keeps_existing P vox env ts gs pg _ c hc
      rw [hd] at this
      rw [this]
      exact fun h => nomatch h
    unfold diceLoop at h
    by_cases h1 : fs.has (tileFile P u) = true
    · rw [if_pos h1] at h
      rcases List.mem_cons.mp ht with rfl | ht
      · exact keep h (get_ne_none_has.mpr h1)
      · exact ih _ _ _ _ h t ht hne
    rw [if_neg h1] at h
    by_cases h2 : (vox u).white.length = 0
    · rw [if_pos h2] at h
      rcases List.mem_cons.mp ht with rfl | ht
      · exact absurd h2 hne
      · exact ih _ _ _ _ h t ht hne
    rw [if_neg h2] at h
    dsimp only at h
    generalize hW : (vox u).Write (env u) ⟨0, 0, 0, 0, 0, 0⟩ = W at h
    obtain ⟨c, ok⟩ := W
    dsimp only at h
    cases ok with
    | false => simp at h
    | true =>
      rw [if_pos rfl] at h
      rcases List.mem_cons.mp ht with rfl | ht
      · refine keep h ?_
        cases c with
        | none =>
          exfalso
          unfold BinVOX.Write at hW
          split at hW
          · cases hW
          · dsimp only at hW
            split at hW <;> cases hW
        | some c =>
          dsimp only
          rw [GoMap.get_set, if_pos rfl]
          exact fun h => nomatch h
      · exact ih _ _ _ _ h t ht hne

section
variable [GoFloat F] [FloatText F] {load : Bytes → Option (Mesh F)} {bbox : Mesh F → Box F} {env env' : Bytes → Key → FileEnv}

/-- No run of the loop over the arguments changes a file that was there. -/
theorem diceArgs_keeps {dim nx ny nz : Int} {args : List Bytes} {fs fs' : FS} {mbb : Option (Box F)} {pf : GoMap Bytes Unit}
    {r : Res (GoMap Bytes Unit)} (h : DiceArgs load bbox env dim nx ny nz args fs mbb pf fs' r) {n c : Bytes}
    (hn : fs.get n = some c) : fs'.get n = some c := by
  induction h with
  | nil => exact hn
  | unreadable _ => exact hn
  | layoutFails _ _ => exact hn
  | layoutPanics _ _ => exact hn
  | @writeFails arg _ _ _ _ _ _ _ _ _ hr =>
    obtain ⟨vox, -, hr⟩ := hr
    have := dice_keeps_existing (jobPrefix arg dim nx ny nz) vox (env arg) (tileIndices nx ny nz) _ [] n c hn
    rw [← hr] at this
    exact this
  | @next arg _ _ _ _ _ _ _ _ _ _ _ _ hr _ ih =>
    obtain ⟨vox, -, hr⟩ := hr
    have := dice_keeps_existing (jobPrefix arg dim nx ny nz) vox (env arg) (tileIndices nx ny nz) _ [] n c hn
    rw [← hr] at this
    exact ih this

/-- After a complete run, another one (with any outcome of its system calls) changes nothing and adds no prefix. -/
theorem diceArgs_rerun {dim nx ny nz : Int} {args : List Bytes} {fs fs' : FS} {mbb : Option (Box F)} {pf pf1 : GoMap Bytes Unit}
    {r : Res (GoMap Bytes Unit)} (h : DiceArgs load bbox env dim nx ny nz args fs mbb pf fs' r) (hr : r = .ok pf1) {gs gs' : FS}
    (hg : ∀ n c, fs'.get n = some c → gs.get n = some c) {pg : GoMap Bytes Unit} {r' : Res (GoMap Bytes Unit)}
    (h' : DiceArgs load bbox env' dim nx ny nz args gs mbb pg gs' r') : gs' = gs ∧ r' = .ok pg := by
  induction h generalizing pg with
  | nil => cases h'; exact ⟨rfl, rfl⟩
  | unreadable _ => cases hr
  | layoutFails _ _ => cases hr
  | layoutPanics _ _ => cases hr
  | writeFails _ _ _ => cases hr
  | @next arg args fs mbb pf mesh L fs1 pfxs fs2 r h hl hd hn ih =>
    have hload : (gs.get arg).bind load = some mesh := by
      cases hc : fs.get arg with
      | none => rw [hc] at h; cases h
      | some c =>
        rw [hc] at h
        obtain ⟨vox, -, hd⟩ := hd
        have h1 := dice_keeps_existing (jobPrefix arg dim nx ny nz) vox (env arg) (tileIndices nx ny nz) fs [] arg c hc
        rw [← hd] at h1
        rw [hg _ _ (diceArgs_keeps hn h1)]
        exact h
    have idle : ∀ out, DiceRun mesh (mbb.getD (bbox mesh)) L nx ny nz (jobPrefix arg dim nx ny nz) (env' arg) gs out →
        out = (gs, some []) := by
      rintro out ⟨vox', hv', rfl⟩
      obtain ⟨vox, hv, hd⟩ := hd
      apply diceLoop_idle
      intro t ht hne
      have := diceLoop_covers _ vox (env arg) _ fs [] fs1 pfxs hd.symm t ht (by
        rw [Ne, (voxelize_deterministic _ mesh _ _ (hv t) (hv' t)).2.2]
        exact hne)
      obtain ⟨c, hc⟩ := Option.ne_none_iff_exists'.mp this
      rw [hg _ _ (diceArgs_keeps hn hc)]
      exact fun h => nomatch h
    cases h' with
    | unreadable h2 => rw [hload] at h2; cases h2
    | layoutFails h2 hl2 =>
      rw [hload] at h2
      cases h2
      rw [hl] at hl2
      cases hl2
    | layoutPanics h2 hl2 =>
      rw [hload] at h2
      cases h2
      rw [hl] at hl2
      cases hl2
    | writeFails h2 hl2 hd2 =>
      rw [hload] at h2
      cases h2
      rw [hl] at hl2
      cases hl2
      have := idle _ hd2
      injection this with _ this
      cases this
    | next h2 hl2 hd2 hn2 =>
      rw [hload] at h2
      cases h2
      rw [hl] at hl2
      cases hl2
      have e := idle _ hd2
      injection e with e1 e2
      injection e2 with e2
      subst e1 e2
      exact ih hr hg hn2

/-- **C77.** Run again in the directory a successful run has left — or one with more files — stldice
    changes nothing, cannot fail, and prints a script without a single command: the script of the first
    run must be kept. -/
theorem dice_cmd_rerun {fl : DiceFlags F} {fs fs' gs gs' : FS} {out out' : Bytes} {e : Exit}
    (h : DiceCmd load bbox env fl fs out fs' .done) (hg : ∀ n c, fs'.get n = some c → gs.get n = some c)
    (h' : DiceCmd load bbox env' fl gs out' gs' e) :
    gs' = gs ∧ e = .done ∧ out' = ascii "#!/bin/bash -x\n" := by
  generalize he : Exit.done = e1 at h
  cases h with
  | usage _ => cases he
  | notMultiple _ _ => cases he
  | divByZero _ _ => cases he
  | badMbb _ _ _ => cases he
  | failed _ _ _ _ _ => cases he
  | panics _ _ _ _ _ => cases he
  | done h0 hd hm hb ha ho =>
    cases h' with
    | usage h1 => exact absurd h1 h0
    | notMultiple _ h1 => rw [hd] at h1; cases h1
    | divByZero _ h1 => rw [hd] at h1; cases h1
    | badMbb _ _ h1 => exact absurd h1 hm
    | failed _ _ _ hb' ha' =>
      subst hb hb'
      have := (diceArgs_rerun ha rfl hg ha').2
      cases this
    | panics _ _ _ hb' ha' =>
      subst hb hb'
      have := (diceArgs_rerun ha rfl hg ha').2
      cases this
    | done _ _ _ hb' ha' ho' =>
      subst hb hb'
      obtain ⟨e1, e2⟩ := diceArgs_rerun ha rfl hg ha'
      injection e2 with e2
      subst e1 e2
      have : ∀ o : List Bytes, o.Perm (GoMap.keys ([] : GoMap Bytes Unit)) → o = [] := fun o ho => ho.eq_nil
      rw [this _ ho']
      refine ⟨rfl, rfl, ?_⟩
      unfold script sortStrings
      simp

/-- **C77.** stldice never changes or removes a file that was there before. -/
theorem dice_cmd_keeps {fl : DiceFlags F} {fs fs' : FS} {out : Bytes} {e : Exit} (h : DiceCmd load bbox env fl fs out fs' e)
    {n c : Bytes} (hn : fs.get n = some c) : fs'.get n = some c := by
  cases h with
  | usage _ => exact hn
  | notMultiple _ _ => exact hn
  | divByZero _ _ => exact hn
  | badMbb _ _ _ => exact hn
  | failed _ _ _ _ ha => exact diceArgs_keeps ha hn
  | panics _ _ _ _ ha => exact diceArgs_keeps ha hn
  | done _ _ _ _ ha _ => exact diceArgs_keeps ha hn

end
end Cmd
end StlDice
