import Verif.Props.CmdLines
import Verif.Model.Usage
import Verif.Model.BinvoxDiceCmd
import Verif.Model.SvxCmd
import Verif.Model.MrCmd
import Verif.Model.SvxLocal
import Verif.Model.SvxNet

/-! # Arguments that are no command line (C105) -/

namespace StlDice
open Spec StlDice.Flag GoFloat BinVOX

variable {kind : Bytes → Option Kind} {float : Bytes → Bool} {args : List Bytes}

/-- A setting written on the command line is understood, and the rest is parsed after it. -/
theorem parse_written {a : Bytes × Bytes} {p : List Bytes} (hs : Setting kind float a) (hw : Written kind a p) (args : List Bytes) :
    parse kind float (p ++ args) = (parse kind float args).after a := by
  have ae : ascii "=" = [61] := by decide
  obtain ⟨hn, k, hk, hv⟩ := hs
  rw [← valid_iff] at hv
  cases hw with
  | @eq n v p hp =>
    have w : word (p ++ n ++ ascii "=" ++ v) = .flag n (some v) :=
      word_flag_iff.mpr ⟨hn, p, hp, by rw [ae]; simp [eqPart]⟩
    rw [List.singleton_append]
    by_cases hb : k = .bool
    · subst hb
      rw [parse_bool w hk]
      exact if_pos hv
    · rw [parse_nonbool w hk hb]
      exact if_pos hv
  | @next n v p hp hb =>
    have w : word (p ++ n) = .flag n none := word_flag_iff.mpr ⟨hn, p, hp, by simp [eqPart]⟩
    have hb' : k ≠ .bool := by rintro rfl; exact hb hk
    show parse kind float ((p ++ n) :: v :: args) = _
    rw [parse_nonbool w hk hb']
    exact if_pos hv
  | @bare n p hp hb =>
    have w : word (p ++ n) = .flag n none := word_flag_iff.mpr ⟨hn, p, hp, by simp [eqPart]⟩
    show parse kind float ((p ++ n) :: args) = _
    rw [parse_bool w hb]
    have hk' := hk
    dsimp only at hk'
    rw [hb] at hk'
    injection hk' with hk'
    subst hk'
    exact if_pos hv

theorem after_exit {o : Outcome} {a : Bytes × Bytes} {b : Bool} : o.after a = .exit b ↔ o = .exit b := by
  cases o with
  | ok s r =>
    constructor
    · intro h; cases h
    · intro h; cases h
  | exit c => exact Iff.rfl

theorem asksHelp_cons {a : Bytes × Bytes} {p : List Bytes} (hs : Setting kind float a) (hw : Written kind a p)
    (h : AsksHelp kind float args) : AsksHelp kind float (p ++ args) := by
  obtain ⟨sets, pieces, w, rest, h1, h2, h3, rfl⟩ := h
  refine ⟨a :: sets, p :: pieces, w, rest, ?_, .cons hw h2, h3, by simp⟩
  intro s h
  rcases List.mem_cons.mp h with rfl | h
  · exact hs
  · exact h1 s h

/-- **C105.** A command ends after its usage text, as a success, exactly for arguments that ask for help. -/
theorem parse_help_iff : parse kind float args = .exit true ↔ AsksHelp kind float args := by
  have ae : ascii "=" = [61] := by decide
  constructor
  · suffices main : ∀ (n : Nat) (args : List Bytes), args.length ≤ n → parse kind float args = .exit true → AsksHelp kind float args from
      main args.length args le_rfl
    intro n
    induction n with
    | zero =>
      intro args hl h
      have : args = [] := List.length_eq_zero_iff.mp (by omega)
      rw [this, parse] at h
      cases h
    | succ n ih =>
      intro args hl h
      cases args with
      | nil => rw [parse] at h; cases h
      | cons s args =>
        have hl' : args.length ≤ n := by simpa using hl
        cases hw : word s with
        | arg => rw [parse.eq_def] at h; dsimp only at h; rw [hw] at h; cases h
        | stop => rw [parse.eq_def] at h; dsimp only at h; rw [hw] at h; cases h
        | bad => rw [parse.eq_def] at h; dsimp only at h; rw [hw] at h; cases h
        | flag name value =>
          obtain ⟨hn, p, hp, hse⟩ := word_flag_iff.mp hw
          cases hk : kind name with
          | none =>
            rw [parse.eq_def] at h
            dsimp only at h
            rw [hw] at h
            dsimp only at h
            rw [hk] at h
            dsimp only at h
            injection h with h
            rw [decide_eq_true_eq] at h
            refine ⟨[], [], s, args, fun _ h => (List.not_mem_nil h).elim, .nil, ⟨p, name, hp, h.symm, hk, ?_⟩, rfl⟩
            cases value with
            | none => left; rw [hse]; simp [eqPart]
            | some v => right; exact ⟨v, by rw [hse, ae]; simp [eqPart]⟩
          | some k =>
            by_cases hb : k = .bool
            · subst hb
              rw [parse_bool hw hk] at h
              split at h
              · rename_i hv
                have hh := ih _ hl' (after_exit.mp h)
                have wr : Written kind (name, value.getD (ascii "true")) [s] := by
                  cases value with
                  | none =>
                    have : s = p ++ name := by rw [hse]; simp [eqPart]
                    rw [this]
                    exact .bare hp hk
                  | some v =>
                    have : s = p ++ name ++ ascii "=" ++ v := by rw [hse, ae]; simp [eqPart]
                    rw [this]
                    exact .eq hp
                exact asksHelp_cons (p := [s]) ⟨hn, _, hk, valid_iff.mp hv⟩ wr hh
              · cases h
            · rw [parse_nonbool hw hk hb] at h
              cases value with
              | some v =>
                dsimp only at h
                split at h
                · rename_i hv
                  have : s = p ++ name ++ ascii "=" ++ v := by rw [hse, ae]; simp [eqPart]
                  have wr : Written kind (name, v) [s] := by rw [this]; exact .eq hp
                  exact asksHelp_cons (p := [s]) ⟨hn, _, hk, valid_iff.mp hv⟩ wr (ih _ hl' (after_exit.mp h))
                · cases h
              | none =>
                cases args with
                | nil => cases h
                | cons v args =>
                  dsimp only at h
                  split at h
                  · rename_i hv
                    have : s = p ++ name := by rw [hse]; simp [eqPart]
                    have wr : Written kind (name, v) [s, v] := by
                      rw [this]
                      refine .next hp ?_
                      rw [hk]
                      intro e
                      injection e with e
                      exact hb e
                    exact asksHelp_cons (p := [s, v]) ⟨hn, _, hk, valid_iff.mp hv⟩ wr
                      (ih _ (by simp only [List.length_cons] at hl'; omega) (after_exit.mp h))
                  · cases h
  · rintro ⟨sets, pieces, w, rest, h1, h2, ⟨p, n, hp, hn, hk, hw⟩, rfl⟩
    have base : parse kind float (w :: rest) = .exit true := by
      have fn : FlagName n := by
        rcases hn with rfl | rfl <;> (unfold FlagName; decide)
      have : ∃ v, word w = .flag n v := by
        rcases hw with rfl | ⟨v, rfl⟩
        · exact ⟨none, word_flag_iff.mpr ⟨fn, p, hp, by simp [eqPart]⟩⟩
        · exact ⟨some v, word_flag_iff.mpr ⟨fn, p, hp, by rw [ae]; simp [eqPart]⟩⟩
      obtain ⟨v, hv⟩ := this
      rw [parse.eq_def]
      dsimp only
      rw [hv]
      dsimp only
      rw [hk]
      dsimp only
      rw [decide_eq_true hn.symm]
    induction h2 with
    | nil => exact base
    | @cons a q as qs hw h2 ih =>
      rw [List.flatten_cons, List.append_assoc, parse_written (h1 a (by simp)) hw, after_exit]
      exact ih fun s h => h1 s (by simp [h])

/-- Arguments that ask for help are no command line. -/
theorem help_no_line {sets : List (Bytes × Bytes)} {files : List Bytes} (h : AsksHelp kind float args) :
    ¬ CommandLine kind float sets files args := by
  intro hc
  rw [parse_help_iff.symm] at h
  rw [parse_iff.mpr hc] at h
  cases h

/-- **C105.** Arguments that are no command line, and do not ask for help, end a command with an error. -/
theorem parse_error_iff : parse kind float args = .exit false ↔
    (∀ sets files, ¬ CommandLine kind float sets files args) ∧ ¬ AsksHelp kind float args := by
  rw [← parse_help_iff]
  constructor
  · intro h
    refine ⟨fun sets files hc => ?_, fun hc => ?_⟩
    · rw [parse_iff.mpr hc] at h; cases h
    · rw [hc] at h; cases h
  · rintro ⟨h1, h2⟩
    cases hp : parse kind float args with
    | ok sets files => exact absurd (parse_iff.mp hp) (h1 _ _)
    | exit b =>
      cases b with
      | true => exact absurd hp h2
      | false => rfl

namespace Cmd

/-- The exit of a command whose arguments are no command line. -/
theorem exit_iff (hc : ∀ sets files, ¬ CommandLine kind float sets files args) {e : Exit} :
    (∃ ok, parse kind float args = .exit ok ∧ e = if ok then .done else .fatal) ↔
      (AsksHelp kind float args ∧ e = .done) ∨ (¬ AsksHelp kind float args ∧ e = .fatal) := by
  constructor
  · rintro ⟨ok, h, rfl⟩
    cases ok with
    | true => exact .inl ⟨parse_help_iff.mp h, rfl⟩
    | false => exact .inr ⟨(parse_error_iff.mp h).2, rfl⟩
  · rintro (⟨h, rfl⟩ | ⟨h, rfl⟩)
    · exact ⟨true, parse_help_iff.mpr h, rfl⟩
    · exact ⟨false, parse_error_iff.mpr ⟨hc, h⟩, rfl⟩

theorem not_ok (hc : ∀ sets files, ¬ CommandLine kind float sets files args) {sets : List (Bytes × Bytes)} {files : List Bytes} :
    parse kind float args ≠ .ok sets files := fun h => hc _ _ (parse_iff.mp h)

section
variable {F : Type} [GoFloat F] [FloatText F] {d d' : Disk} {e : Exit}

/-- **C105.** stldice. -/
theorem stldice_usage {load : Bytes → Option (Mesh F)} {bbox : Mesh F → BinVOX.Box F} {env : Bytes → Key → FileEnv} {fs fs' : FS}
    {out : Bytes} (hc : ∀ sets files, ¬ CommandLine stldiceKind float sets files args) :
    StldiceProc float load bbox env args fs out fs' e ↔ out = [] ∧ fs' = fs ∧
      ((AsksHelp stldiceKind float args ∧ e = .done) ∨ (¬ AsksHelp stldiceKind float args ∧ e = .fatal)) := by
  rw [← exit_iff hc]
  constructor
  · rintro (⟨h⟩ | ⟨h, -⟩)
    · exact ⟨rfl, rfl, _, h, rfl⟩
    · unfold stldiceFlags at h
      split at h
      · cases h
      · rename_i hp; exact absurd hp (not_ok hc)
  · rintro ⟨rfl, rfl, ok, h, rfl⟩
    exact .usage h

/-- **C105.** merge-stl. -/
theorem merge_stl_usage {lib : GL F} {load : Bytes → Option (List (Tri (Vec F)))}
    (hc : ∀ sets files, ¬ CommandLine mergeStlKind (fun _ => false) sets files args) :
    MergeStlProc lib load d args d' e ↔ d' = d ∧
      ((AsksHelp mergeStlKind (fun _ => false) args ∧ e = .done) ∨ (¬ AsksHelp mergeStlKind (fun _ => false) args ∧ e = .fatal)) := by
  rw [← exit_iff hc]
  have no : ∀ x, mergeStlFlags args ≠ some x := by
    intro x h
    unfold mergeStlFlags at h
    split at h
    · cases h
    · rename_i hp; exact absurd hp (not_ok hc)
  constructor
  · rintro (⟨h⟩ | ⟨h, -⟩ | ⟨h, -⟩)
    · exact ⟨rfl, _, h, rfl⟩
    · exact absurd h (no _)
    · exact absurd h (no _)
  · rintro ⟨rfl, ok, h, rfl⟩
    exact .usage h

/-- **C105.** merge-binvox. -/
theorem merge_binvox_usage {sch : Bytes → AddSched} (hc : ∀ sets files, ¬ CommandLine mergeBinvoxKind (fun _ => false) sets files args) :
    MergeBinvoxProc F d sch args d' e ↔ d' = d ∧
      ((AsksHelp mergeBinvoxKind (fun _ => false) args ∧ e = .done) ∨
        (¬ AsksHelp mergeBinvoxKind (fun _ => false) args ∧ e = .fatal)) := by
  rw [← exit_iff hc]
  constructor
  · rintro (⟨h⟩ | ⟨h, -⟩)
    · exact ⟨rfl, _, h, rfl⟩
    · unfold mergeBinvoxFlags at h
      split at h
      · cases h
      · rename_i hp; exact absurd hp (not_ok hc)
  · rintro ⟨rfl, ok, h, rfl⟩
    exact .usage h

/-- **C105.** voxcut. -/
theorem voxcut_usage {lib : GL F} (hc : ∀ sets files, ¬ CommandLine voxcutKind float sets files args) :
    VoxcutProc float lib d args d' e ↔ d' = d ∧
      ((AsksHelp voxcutKind float args ∧ e = .done) ∨ (¬ AsksHelp voxcutKind float args ∧ e = .fatal)) := by
  rw [← exit_iff hc]
  constructor
  · rintro (⟨h⟩ | ⟨h, -⟩)
    · exact ⟨rfl, _, h, rfl⟩
    · unfold voxcutFlags at h
      split at h
      · cases h
      · rename_i hp; exact absurd hp (not_ok hc)
  · rintro ⟨rfl, ok, h, rfl⟩
    exact .usage h

/-- **C105.** voxcut-dice. -/
theorem voxcut_dice_usage {lib : GL F} {out : Bytes} (hc : ∀ sets files, ¬ CommandLine cutDiceKind (fun _ => false) sets files args) :
    CutDiceProc float lib d args out d' e ↔ out = [] ∧ d' = d ∧
      ((AsksHelp cutDiceKind (fun _ => false) args ∧ e = .done) ∨ (¬ AsksHelp cutDiceKind (fun _ => false) args ∧ e = .fatal)) := by
  rw [← exit_iff hc]
  have no : ∀ x, cutDiceFlags args ≠ some x := by
    intro x h
    unfold cutDiceFlags at h
    split at h
    · cases h
    · rename_i hp; exact absurd hp (not_ok hc)
  constructor
  · rintro (⟨h⟩ | ⟨h, -⟩ | ⟨h, -⟩ | ⟨h, -⟩)
    · exact ⟨rfl, rfl, _, h, rfl⟩
    · exact absurd h (no _)
    · exact absurd h (no _)
    · exact absurd h (no _)
  · rintro ⟨rfl, rfl, ok, h, rfl⟩
    exact .usage h

/-- **C105.** binvox-dice. -/
theorem binvox_dice_usage {quote : Bytes → Bytes} {out : Bytes}
    (hc : ∀ sets files, ¬ CommandLine binvoxDiceKind (fun _ => false) sets files args) :
    BinvoxDiceProc F quote args out e ↔ out = [] ∧
      ((AsksHelp binvoxDiceKind (fun _ => false) args ∧ e = .done) ∨
        (¬ AsksHelp binvoxDiceKind (fun _ => false) args ∧ e = .fatal)) := by
  rw [← exit_iff hc]
  have no : ∀ x, binvoxDiceFlags args ≠ some x := by
    intro x h
    unfold binvoxDiceFlags at h
    split at h
    · cases h
    · rename_i hp; exact absurd hp (not_ok hc)
  constructor
  · rintro (⟨h⟩ | ⟨h, -⟩ | ⟨h, -⟩ | ⟨h, -⟩)
    · exact ⟨rfl, _, h, rfl⟩
    · exact absurd h (no _)
    · exact absurd h (no _)
    · exact absurd h (no _)
  · rintro ⟨rfl, ok, h, rfl⟩
    exact .usage h

omit [FloatText F] in
/-- **C105.** svx2stl. -/
theorem svx2stl_usage {unzip : Bytes → Option (List (ZFile F))} {lib : GL F}
    (hc : ∀ sets files, ¬ CommandLine (fun _ => none) (fun _ => false) sets files args) :
    Svx2StlProc unzip lib d args d' e ↔ d' = d ∧
      ((AsksHelp (fun _ => none) (fun _ => false) args ∧ e = .done) ∨ (¬ AsksHelp (fun _ => none) (fun _ => false) args ∧ e = .fatal)) := by
  rw [← exit_iff hc]
  constructor
  · rintro (⟨h⟩ | ⟨h, -⟩)
    · exact ⟨rfl, _, h, rfl⟩
    · exact absurd h (not_ok hc)
  · rintro ⟨rfl, ok, h, rfl⟩
    exact .usage h

/-- **C105.** manifold-mesh and marching-cubes. -/
theorem convert_usage {mesh : BinVOX F → List (Tri (Vec F)) → Prop} {lib : GL F}
    (hc : ∀ sets files, ¬ CommandLine (fun _ => none) (fun _ => false) sets files args) :
    ConvertProc mesh lib d args d' e ↔ d' = d ∧
      ((AsksHelp (fun _ => none) (fun _ => false) args ∧ e = .done) ∨ (¬ AsksHelp (fun _ => none) (fun _ => false) args ∧ e = .fatal)) := by
  rw [← exit_iff hc]
  constructor
  · rintro (⟨h⟩ | ⟨h, -⟩)
    · exact ⟨rfl, _, h, rfl⟩
    · exact absurd h (not_ok hc)
  · rintro ⟨rfl, ok, h, rfl⟩
    exact .usage h

omit [FloatText F] in
/-- **C105.** stldice-mr. -/
theorem stldice_mr_usage {lib : Net.Lib F} {png : Image → Bytes} (hc : ∀ sets files, ¬ CommandLine Mr.mrKind (fun _ => false) sets files args) :
    Mr.MrProc lib png d args d' e ↔ d' = d ∧
      ((AsksHelp Mr.mrKind (fun _ => false) args ∧ e = .done) ∨ (¬ AsksHelp Mr.mrKind (fun _ => false) args ∧ e = .fatal)) := by
  rw [← exit_iff hc]
  have no : ∀ x, Mr.mrFlags args ≠ some x := by
    intro x h
    unfold Mr.mrFlags at h
    split at h
    · cases h
    · rename_i hp; exact absurd hp (not_ok hc)
  constructor
  · rintro (⟨h⟩ | ⟨h, -⟩ | ⟨h, -⟩ | ⟨h, -⟩ | ⟨h, -⟩ | ⟨h, -⟩ | ⟨h, -⟩)
    · exact ⟨rfl, _, h, rfl⟩
    all_goals exact absurd h (no _)
  · rintro ⟨rfl, ok, h, rfl⟩
    exact .usage h

omit [FloatText F] in
/-- **C105.** stl2svx. -/
theorem stl2svx_usage {lib : Net.Lib F} {codec : Net.Codec F} (hc : ∀ sets files, ¬ CommandLine Local.localKind (fun _ => false) sets files args) :
    Local.LocalProc lib codec d args d' e ↔ d' = d ∧
      ((AsksHelp Local.localKind (fun _ => false) args ∧ e = .done) ∨
        (¬ AsksHelp Local.localKind (fun _ => false) args ∧ e = .fatal)) := by
  rw [← exit_iff hc]
  have no : ∀ x, Local.localFlags args ≠ some x := by
    intro x h
    unfold Local.localFlags at h
    split at h
    · cases h
    · rename_i hp; exact absurd hp (not_ok hc)
  constructor
  · intro h
    cases h with
    | usage h => exact ⟨rfl, _, h, rfl⟩
    | _ h => exact absurd h (no _)
  · rintro ⟨rfl, ok, h, rfl⟩
    exact .usage h

omit [GoFloat F] [FloatText F] in
/-- **C105.** stl2svx-client. -/
theorem client_usage {lib : Net.Lib F} {serve : Bytes → Net.Request F → Option Bytes → Prop}
    (hc : ∀ sets files, ¬ CommandLine Net.clientKind (fun _ => false) sets files args) :
    Net.ClientProc lib serve d args d' e ↔ d' = d ∧
      ((AsksHelp Net.clientKind (fun _ => false) args ∧ e = .done) ∨
        (¬ AsksHelp Net.clientKind (fun _ => false) args ∧ e = .fatal)) := by
  rw [← exit_iff hc]
  have no : ∀ x, Net.clientFlags args ≠ some x := by
    intro x h
    unfold Net.clientFlags at h
    split at h
    · cases h
    · rename_i hp; exact absurd hp (not_ok hc)
  constructor
  · intro h
    cases h with
    | usage h => exact ⟨rfl, _, h, rfl⟩
    | _ h => exact absurd h (no _)
  · rintro ⟨rfl, ok, h, rfl⟩
    exact .usage h

end

/-! ## Examples -/

deriving instance DecidableEq for Outcome

/-- `stldice -dim 64 --help x`. -/
def helpArgs : List Bytes := [ascii "-dim", ascii "64", ascii "--help", ascii "x"]

theorem helpArgs_help : AsksHelp stldiceKind (fun _ => false) helpArgs :=
  parse_help_iff.mp (by decide +kernel)

example {load : Bytes → Option (Mesh ℚ)} {bbox : Mesh ℚ → BinVOX.Box ℚ} {env : Bytes → Key → FileEnv} {fs : FS} :
    StldiceProc (fun _ => false) load bbox env helpArgs fs [] fs .done :=
  (stldice_usage fun _ _ => help_no_line helpArgs_help).mpr ⟨rfl, rfl, .inl ⟨helpArgs_help, rfl⟩⟩

/-- `stldice -dim six` is an error. -/
theorem badArgs_error : (∀ sets files, ¬ CommandLine stldiceKind (fun _ => false) sets files [ascii "-dim", ascii "six"]) ∧
    ¬ AsksHelp stldiceKind (fun _ => false) [ascii "-dim", ascii "six"] :=
  parse_error_iff.mp (by decide +kernel)

example {load : Bytes → Option (Mesh ℚ)} {bbox : Mesh ℚ → BinVOX.Box ℚ} {env : Bytes → Key → FileEnv} {fs fs' : FS} {out : Bytes} {e : Exit} :
    StldiceProc (fun _ => false) load bbox env [ascii "-dim", ascii "six"] fs out fs' e ↔ out = [] ∧ fs' = fs ∧ e = .fatal := by
  rw [stldice_usage badArgs_error.1]
  simp [badArgs_error.2]

/-- svx2stl has no flags: `-o` is an error, `-h` is not. -/
theorem svx_error : (∀ sets files, ¬ CommandLine (fun _ => none) (fun _ => false) sets files [ascii "-o", ascii "a.svx"]) ∧
    ¬ AsksHelp (fun _ => none) (fun _ => false) [ascii "-o", ascii "a.svx"] :=
  parse_error_iff.mp (by decide +kernel)

example {unzip : Bytes → Option (List (ZFile ℚ))} {lib : GL ℚ} {d d' : Disk} {e : Exit} :
    Svx2StlProc unzip lib d [ascii "-o", ascii "a.svx"] d' e ↔ d' = d ∧ e = .fatal := by
  rw [svx2stl_usage svx_error.1]
  simp [svx_error.2]

example {mesh : BinVOX ℚ → List (Tri (Vec ℚ)) → Prop} {lib : GL ℚ} {d d' : Disk} {e : Exit} :
    ConvertProc mesh lib d [ascii "-o", ascii "a.svx"] d' e ↔ d' = d ∧ e = .fatal := by
  rw [convert_usage svx_error.1]
  simp [svx_error.2]

end Cmd
end StlDice
