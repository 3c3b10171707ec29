import Verif.Spec.FlagNames
import Verif.Props.Usage

/-! # The settings of the commands (C117) -/

namespace StlDice.Cmd
open StlDice Spec StlDice.Flag GoFloat BinVOX

/-- The flags each command declares in the model. -/
def kindOf : Command → Bytes → Option Kind
  | .stldice => stldiceKind
  | .stldiceMr => Mr.mrKind
  | .mergeStl => mergeStlKind
  | .mergeBinvox => mergeBinvoxKind
  | .voxcut => voxcutKind
  | .voxcutDice => cutDiceKind
  | .binvoxDice => binvoxDiceKind
  | .stl2svx => Local.localKind
  | .stl2svxClient => Net.clientKind
  | .svx2stl | .manifoldMesh | .marchingCubes => fun _ => none

theorem table_iff {l : List (String × Kind)} (hn : (l.map fun p => ascii p.1).Nodup) {n : Bytes} {k : Kind} :
    table l n = some k ↔ ∃ s, (s, k) ∈ l ∧ ascii s = n := by
  unfold table
  induction l with
  | nil => simp
  | cons a l ih =>
    rw [List.map_cons, List.nodup_cons] at hn
    rw [List.find?_cons]
    by_cases h : ascii a.1 = n
    · rw [decide_eq_true h]
      dsimp only [Option.map]
      constructor
      · intro e
        injection e with e
        exact ⟨a.1, by rw [← e]; exact List.mem_cons_self, h⟩
      · rintro ⟨s, hs, rfl⟩
        rcases List.mem_cons.mp hs with rfl | hs
        · rfl
        · exact absurd (List.mem_map.mpr ⟨_, hs, h.symm⟩) hn.1
    · rw [decide_eq_false h]
      dsimp only
      rw [ih hn.2]
      constructor
      · rintro ⟨s, hs, e⟩
        exact ⟨s, List.mem_cons_of_mem _ hs, e⟩
      · rintro ⟨s, hs, e⟩
        rcases List.mem_cons.mp hs with rfl | hs
        · exact absurd e h
        · exact ⟨s, hs, e⟩

/-- **C117.** Each command has exactly these settings. -/
theorem settings_of_command (c : Command) {n : Bytes} {k : Kind} : kindOf c n = some k ↔ ∃ s, (s, k) ∈ settingsOf c ∧ ascii s = n := by
  have go : ∀ {l m : List (String × Kind)}, (l.map fun p => ascii p.1).Nodup → (∀ a, a ∈ l ↔ a ∈ m) →
      (table l n = some k ↔ ∃ s, (s, k) ∈ m ∧ ascii s = n) := by
    intro l m h1 h2
    rw [table_iff h1]
    exact exists_congr fun s => and_congr_left' (h2 _)
  cases c with
  | svx2stl | manifoldMesh | marchingCubes => simp [kindOf, settingsOf]
  | _ =>
    refine go (by decide) ?_
    intro a
    simp only [settingsOf, List.mem_cons, List.not_mem_nil, or_false] <;> tauto

/-- **C117.** What can be set: a setting of the command to a text that is a value of its type. -/
theorem setting_iff (c : Command) {float : Bytes → Bool} {n v : Bytes} :
    Setting (kindOf c) float (n, v) ↔ ∃ s k, (s, k) ∈ settingsOf c ∧ ascii s = n ∧ ValueText float k v := by
  unfold Setting
  constructor
  · rintro ⟨-, k, hk, hv⟩
    obtain ⟨s, hs, e⟩ := (settings_of_command c).mp hk
    exact ⟨s, k, hs, e, hv⟩
  · rintro ⟨s, k, hs, rfl, hv⟩
    refine ⟨?_, k, (settings_of_command c).mpr ⟨s, hs, rfl⟩, hv⟩
    have : ∀ a ∈ settingsOf c, (ascii a.1 ≠ [] ∧ (ascii a.1).head? ≠ some 45 ∧ (61 : UInt8) ∉ ascii a.1) := by
      cases c <;> decide
    exact this _ hs

/-- **C117.** A flag the command does not have, after any settings it has, makes its arguments no command line: by C105 the command
    then does nothing but print its usage. -/
theorem unknown_flag_refused (c : Command) {float : Bytes → Bool} {sets : List (Bytes × Bytes)} {pieces : List (List Bytes)}
    (hs : ∀ s ∈ sets, Setting (kindOf c) float s) (hp : List.Forall₂ (Written (kindOf c)) sets pieces) {n w : Bytes} (hn : FlagName n)
    (hw : FlagWord n w) (hu : ∀ a ∈ settingsOf c, ascii a.1 ≠ n) (rest : List Bytes) :
    (∀ sets' files, ¬ CommandLine (kindOf c) float sets' files (pieces.flatten ++ w :: rest)) ∧
    (AsksHelp (kindOf c) float (pieces.flatten ++ w :: rest) ↔ n = ascii "help" ∨ n = ascii "h") := by
  have ae : ascii "=" = [61] := by decide
  have hk : kindOf c n = none := by
    cases h : kindOf c n with
    | none => rfl
    | some k =>
      obtain ⟨s, h1, h2⟩ := (settings_of_command c).mp h
      exact absurd h2 (hu _ h1)
  obtain ⟨p, hd, hw⟩ := hw
  have hword : ∃ v, word w = .flag n v := by
    rcases hw with rfl | ⟨v, rfl⟩
    · exact ⟨none, word_flag_iff.mpr ⟨hn, p, hd, by simp [eqPart]⟩⟩
    · exact ⟨some v, word_flag_iff.mpr ⟨hn, p, hd, by rw [ae]; simp [eqPart]⟩⟩
  obtain ⟨v, hv⟩ := hword
  have hparse : parse (kindOf c) float (pieces.flatten ++ w :: rest) = .exit (n = ascii "help" ∨ n = ascii "h") := by
    induction hp with
    | nil =>
      rw [List.flatten_nil, List.nil_append, parse.eq_def]
      dsimp only
      rw [hv]
      dsimp only
      rw [hk]
    | @cons a q as qs hw h2 ih =>
      rw [List.flatten_cons, List.append_assoc, parse_written (hs a (by simp)) hw, after_exit]
      exact ih fun s h => hs s (by simp [h])
  constructor
  · intro sets' files hc
    rw [parse_iff.mpr hc] at hparse
    cases hparse
  · rw [← parse_help_iff, hparse]
    constructor
    · intro h
      injection h with h
      exact of_decide_eq_true h
    · intro h
      rw [decide_eq_true h]

/-- **C117.** The same for a setting whose text is no value of its type, written with `=`. -/
theorem bad_value_refused (c : Command) {float : Bytes → Bool} {sets : List (Bytes × Bytes)} {pieces : List (List Bytes)}
    (hs : ∀ s ∈ sets, Setting (kindOf c) float s) (hp : List.Forall₂ (Written (kindOf c)) sets pieces) {s : String} {k : Kind}
    (hk : (s, k) ∈ settingsOf c) {v : Bytes} (hv : ¬ ValueText float k v) {p : Bytes} (hd : Dashes p) (rest : List Bytes) :
    (∀ sets' files, ¬ CommandLine (kindOf c) float sets' files (pieces.flatten ++ (p ++ ascii s ++ ascii "=" ++ v) :: rest)) ∧
    ¬ AsksHelp (kindOf c) float (pieces.flatten ++ (p ++ ascii s ++ ascii "=" ++ v) :: rest) := by
  have ae : ascii "=" = [61] := by decide
  have hkk : kindOf c (ascii s) = some k := (settings_of_command c).mpr ⟨s, hk, rfl⟩
  have hn : FlagName (ascii s) := by
    have : ∀ a ∈ settingsOf c, (ascii a.1 ≠ [] ∧ (ascii a.1).head? ≠ some 45 ∧ (61 : UInt8) ∉ ascii a.1) := by
      cases c <;> decide
    exact this _ hk
  have hw : word (p ++ ascii s ++ ascii "=" ++ v) = .flag (ascii s) (some v) :=
    word_flag_iff.mpr ⟨hn, p, hd, by rw [ae]; simp [eqPart]⟩
  rw [← valid_iff] at hv
  rw [← parse_error_iff]
  induction hp with
  | nil =>
    rw [List.flatten_nil, List.nil_append]
    by_cases hb : k = .bool
    · subst hb
      rw [parse_bool hw hkk]
      exact if_neg hv
    · rw [parse_nonbool hw hkk hb]
      exact if_neg hv
  | @cons a q as qs hw h2 ih =>
    rw [List.flatten_cons, List.append_assoc, parse_written (hs a (by simp)) hw, after_exit]
    exact ih fun s h => hs s (by simp [h])

/-- `stldice -dim 64 -ny=2 -n 3`: there is no `-n`. -/
example := unknown_flag_refused .stldice (float := fun _ => false) (sets := [(ascii "dim", ascii "64"), (ascii "ny", ascii "2")])
  (pieces := [[ascii "-dim", ascii "64"], [ascii "-ny=2"]]) (n := ascii "n") (w := ascii "-n") (by
    intro s hs
    have : s = (ascii "dim", ascii "64") ∨ s = (ascii "ny", ascii "2") := by simpa using hs
    rcases this with rfl | rfl
    · exact (setting_iff .stldice).mpr ⟨"dim", .int, by simp [settingsOf], rfl, valid_iff.mp (by decide +kernel)⟩
    · exact (setting_iff .stldice).mpr ⟨"ny", .int, by simp [settingsOf], rfl, valid_iff.mp (by decide +kernel)⟩)
  (.cons (Written.next (p := ascii "-") (.inl rfl) (by decide)) (.cons (Written.eq (p := ascii "-") (.inl rfl)) .nil))
  (by unfold FlagName; decide) ⟨ascii "-", .inl rfl, .inl rfl⟩ (by decide) [ascii "3"]

/-- `voxcut -cx=ten`. -/
example := bad_value_refused .voxcut (float := fun _ => false) (sets := []) (pieces := []) (s := "cx") (k := .int) (by nofun) .nil
  (by simp [settingsOf]) (v := ascii "ten") (by rw [← valid_iff]; decide +kernel) (p := ascii "-") (.inl rfl) []

end StlDice.Cmd
