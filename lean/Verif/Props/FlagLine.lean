import Verif.Spec.CmdLine
import Verif.Props.IntText

/-! # C80: which command lines are understood, and how -/

namespace StlDice
namespace Flag
open Spec

theorem parseBool_iff {s : Bytes} {b : Bool} : parseBool s = some b ↔ BoolText s b := by
  have tr : ∀ x ∈ ["1", "t", "T", "true", "True", "TRUE"].map ascii, parseBool x = some true := by decide +kernel
  have fa : ∀ x ∈ ["0", "f", "F", "false", "False", "FALSE"].map ascii, parseBool x = some false := by decide +kernel
  have tr' : ∀ x ∈ ["1", "t", "T", "TRUE", "true", "True"].map ascii, BoolText x true := by unfold BoolText; decide +kernel
  have fa' : ∀ x ∈ ["0", "f", "F", "FALSE", "false", "False"].map ascii, BoolText x false := by unfold BoolText; decide +kernel
  constructor
  · intro h
    unfold parseBool at h
    split at h
    · rename_i h1
      injection h with h
      rw [← h]
      exact tr' s h1
    · split at h
      · rename_i h1
        injection h with h
        rw [← h]
        exact fa' s h1
      · exact absurd h (by nofun)
  · intro h
    unfold BoolText at h
    cases b with
    | true => exact tr s h
    | false => exact fa s h

theorem valid_iff {float : Bytes → Bool} {k : Kind} {v : Bytes} : valid float k v = true ↔ ValueText float k v := by
  cases k with
  | bool =>
    show (parseBool v).isSome = true ↔ ∃ b, BoolText v b
    rw [Option.isSome_iff_exists]
    exact exists_congr fun _ => parseBool_iff
  | int =>
    show (parseInt0 v).isSome = true ↔ ∃ i, IntText v i
    rw [Option.isSome_iff_exists]
    exact exists_congr fun _ => int_flag_iff _ _
  | float => exact Iff.rfl
  | str => exact ⟨fun _ => trivial, fun _ => rfl⟩

theorem firstFile_iff (s : Bytes) : FirstFile s ↔ NotFlag s := by
  unfold FirstFile NotFlag
  have e : ascii "-" = [45] := by decide
  rw [e]
  constructor
  · rintro (h | rfl)
    · exact .inl h
    · exact .inr (by decide)
  · rintro (h | h)
    · exact .inl h
    · match s, h with
      | [], _ => left; decide
      | [c], _ =>
        by_cases hc : c = 45
        · right; rw [hc]
        · left; simpa using hc

/-- `=value`, if there is one. -/
def eqPart : Option Bytes → Bytes
  | none => []
  | some v => 61 :: v

theorem splitEq_iff {s n : Bytes} {v : Option Bytes} : splitEq s = (n, v) ↔
    (61 : UInt8) ∉ n ∧ s = n ++ eqPart v := by
  induction s generalizing n with
  | nil =>
    rw [splitEq]
    constructor
    · intro h
      injection h with h1 h2
      subst h1 h2
      simp [eqPart]
    · rintro ⟨-, h⟩
      have h := h.symm
      rw [List.append_eq_nil_iff] at h
      obtain ⟨rfl, h⟩ := h
      cases v with
      | none => rfl
      | some v => cases h
  | cons c s ih =>
    rw [splitEq]
    by_cases hc : c = 61
    · rw [if_pos hc]
      constructor
      · intro h
        injection h with h1 h2
        subst h1 h2 hc
        simp [eqPart]
      · rintro ⟨hn, h⟩
        cases n with
        | nil =>
          cases v with
          | none => cases h
          | some v =>
            injection h with _ h
            rw [h]
        | cons c' n =>
          injection h with h _
          exact absurd (by rw [← h, hc]; simp) hn
    · rw [if_neg hc]
      constructor
      · intro h
        injection h with h1 h2
        obtain ⟨a, b⟩ := ih.mp (Prod.ext rfl h2 : splitEq s = ((splitEq s).1, v))
        subst h1
        refine ⟨?_, ?_⟩
        · rw [List.mem_cons, not_or]
          exact ⟨fun h => hc h.symm, a⟩
        · rw [List.cons_append, ← b]
      · rintro ⟨hn, h⟩
        cases n with
        | nil =>
          cases v with
          | none => cases h
          | some v =>
            injection h with h _
            exact absurd h hc
        | cons c' n =>
          injection h with h1 h2
          rw [List.mem_cons, not_or] at hn
          rw [ih.mpr ⟨hn.2, h2⟩, h1]

theorem word_flag_iff {s n : Bytes} {v : Option Bytes} : word s = .flag n v ↔
    FlagName n ∧ ∃ p, Dashes p ∧ s = p ++ n ++ eqPart v := by
  have d1 : ascii "-" = [45] := by decide
  have d2 : ascii "--" = [45, 45] := by decide
  have nw : ∀ s : Bytes, nameWord s = .flag n v ↔ FlagName n ∧ s = n ++ eqPart v := by
    intro s
    cases s with
    | nil =>
      rw [nameWord]
      constructor
      · intro h; cases h
      · rintro ⟨h, e⟩
        have e := e.symm
        rw [List.append_eq_nil_iff] at e
        exact absurd e.1 h.1
    | cons c s =>
      rw [nameWord]
      by_cases hc : c = 45 ∨ c = 61
      · rw [if_pos hc]
        constructor
        · intro h; cases h
        · rintro ⟨h, e⟩
          obtain ⟨h0, h1, h2⟩ := h
          cases n with
          | nil => exact absurd rfl h0
          | cons c' n =>
            injection e with e _
            subst e
            rcases hc with rfl | rfl
            · exact absurd rfl h1
            · exact absurd (by simp) h2
      · rw [if_neg hc]
        rw [not_or] at hc
        constructor
        · intro h
          injection h with h1 h2
          obtain ⟨a, b⟩ := splitEq_iff.mp (Prod.ext rfl h2 : splitEq s = ((splitEq s).1, v))
          subst h1
          refine ⟨⟨by simp, by simpa using hc.1, ?_⟩, ?_⟩
          · rw [List.mem_cons, not_or]
            exact ⟨fun h => hc.2 h.symm, a⟩
          · rw [List.cons_append, ← b]
        · rintro ⟨⟨h0, h1, h2⟩, e⟩
          cases n with
          | nil => exact absurd rfl h0
          | cons c' n =>
            injection e with e1 e2
            rw [List.mem_cons, not_or] at h2
            rw [splitEq_iff.mpr ⟨h2.2, e2⟩, e1]
  cases s with
  | nil =>
    rw [word]
    constructor
    · intro h; cases h
    · rintro ⟨h, p, hp, e⟩
      have e := e.symm
      rw [List.append_eq_nil_iff, List.append_eq_nil_iff] at e
      exact absurd e.1.2 h.1
  | cons c s =>
    rw [word.eq_def]
    dsimp only
    by_cases hc : c = 45
    · subst hc
      rw [if_neg (by simp)]
      have key : (∃ p, Dashes p ∧ 45 :: s = p ++ n ++ eqPart v) ↔
          (s = n ++ eqPart v ∨ s = 45 :: (n ++ eqPart v)) := by
        unfold Dashes
        rw [d1, d2]
        constructor
        · rintro ⟨p, rfl | rfl, e⟩
          · injection e with _ e
            exact .inl e
          · injection e with _ e
            exact .inr e
        · rintro (e | e)
          · exact ⟨_, .inl rfl, by rw [e]; rfl⟩
          · exact ⟨_, .inr rfl, by rw [e]; rfl⟩
      rw [key]
      cases s with
      | nil =>
        dsimp only
        constructor
        · intro h; cases h
        · rintro ⟨h, e | e⟩
          · have e := e.symm
            rw [List.append_eq_nil_iff] at e
            exact absurd e.1 h.1
          · cases e
      | cons c2 r =>
        dsimp only
        by_cases hc2 : c2 = 45
        · subst hc2
          rw [if_pos rfl]
          have n1 : FlagName n → 45 :: r ≠ n ++ eqPart v := by
            intro h e
            cases n with
            | nil => exact h.1 rfl
            | cons c' n =>
              injection e with e _
              exact h.2.1 (by rw [← e]; rfl)
          cases r with
          | nil =>
            dsimp only
            constructor
            · intro h; cases h
            · rintro ⟨h, e | e⟩
              · exact absurd e (n1 h)
              · injection e with _ e
                have e := e.symm
                rw [List.append_eq_nil_iff] at e
                exact absurd e.1 h.1
          | cons c3 r =>
            dsimp only
            rw [nw]
            constructor
            · rintro ⟨h, e⟩
              exact ⟨h, .inr (by rw [e])⟩
            · rintro ⟨h, e | e⟩
              · exact absurd e (n1 h)
              · injection e with _ e
                exact ⟨h, e⟩
        · rw [if_neg hc2, nw]
          constructor
          · rintro ⟨h, e⟩
            exact ⟨h, .inl e⟩
          · rintro ⟨h, e | e⟩
            · exact ⟨h, e⟩
            · injection e with e _
              exact absurd e hc2
    · rw [if_pos hc]
      constructor
      · intro h; cases h
      · rintro ⟨h, p, hp, e⟩
        unfold Dashes at hp
        rw [d1, d2] at hp
        rcases hp with rfl | rfl <;> (injection e with e _; exact absurd e hc)

theorem word_stop_iff {s : Bytes} : word s = .stop ↔ s = ascii "--" := by
  have d2 : ascii "--" = [45, 45] := by decide
  have nw : ∀ s : Bytes, nameWord s ≠ .stop := by
    intro s
    cases s with
    | nil => exact fun h => nomatch h
    | cons c s => rw [nameWord]; split <;> exact fun h => nomatch h
  rw [d2]
  constructor
  · intro h
    match s, h with
    | [], h => cases h
    | c :: s, h =>
      rw [word.eq_def] at h
      dsimp only at h
      split at h
      · cases h
      · rename_i hc
        rw [not_not] at hc
        subst hc
        match s, h with
        | [], h => cases h
        | c2 :: r, h =>
          dsimp only at h
          split at h
          · rename_i hc
            subst hc
            match r, h with
            | [], _ => rfl
            | c3 :: r, h => exact absurd h (nw _)
          · exact absurd h (nw _)
  · rintro rfl
    rfl

theorem word_arg_iff {s : Bytes} : word s = .arg ↔ FirstFile s := by
  rw [firstFile_iff]
  exact ⟨fun h => by by_contra hn; exact word_not_arg hn h, word_arg⟩

theorem after_ok {o : Outcome} {a : Bytes × Bytes} {sets : List (Bytes × Bytes)} {rest : List Bytes} :
    o.after a = .ok sets rest ↔ ∃ sets', sets = a :: sets' ∧ o = .ok sets' rest := by
  cases o with
  | ok s r =>
    show Outcome.ok (a :: s) r = _ ↔ _
    constructor
    · intro h
      injection h with h1 h2
      subst h1 h2
      exact ⟨_, rfl, rfl⟩
    · rintro ⟨s', rfl, h⟩
      injection h with h1 h2
      rw [h1, h2]
  | exit b =>
    show Outcome.exit b = _ ↔ _
    constructor
    · intro h; cases h
    · rintro ⟨s', rfl, h⟩; cases h

/-- One setting more. -/
theorem commandLine_cons {kind : Bytes → Option Kind} {float : Bytes → Bool} {a : Bytes × Bytes} {sets : List (Bytes × Bytes)}
    {files args : List Bytes} : CommandLine kind float (a :: sets) files args ↔
      Setting kind float a ∧ ∃ p args', Written kind a p ∧ args = p ++ args' ∧ CommandLine kind float sets files args' := by
  unfold CommandLine
  constructor
  · rintro ⟨hs, pieces, hp, h⟩
    cases hp with
    | @cons _ p _ ps h1 h2 =>
      have hs' : ∀ s ∈ sets, Setting kind float s := fun s h => hs s (by simp [h])
      rcases h with ⟨rfl, h⟩ | rfl
      · exact ⟨hs a (by simp), p, ps.flatten ++ files, h1, by simp, hs', ps, h2, .inl ⟨rfl, h⟩⟩
      · exact ⟨hs a (by simp), p, ps.flatten ++ ascii "--" :: files, h1, by simp, hs', ps, h2, .inr rfl⟩
  · rintro ⟨ha, p, args', hp, rfl, hs, pieces, hps, h⟩
    refine ⟨?_, p :: pieces, .cons hp hps, ?_⟩
    · intro s h
      rcases List.mem_cons.mp h with rfl | h
      · exact ha
      · exact hs s h
    · rcases h with ⟨rfl, h⟩ | rfl
      · exact .inl ⟨by simp, h⟩
      · exact .inr (by simp)

theorem commandLine_nil {kind : Bytes → Option Kind} {float : Bytes → Bool} {files args : List Bytes} :
    CommandLine kind float [] files args ↔
      (args = files ∧ ∀ f, files.head? = some f → FirstFile f) ∨ args = ascii "--" :: files := by
  unfold CommandLine
  constructor
  · rintro ⟨-, pieces, hp, h⟩
    cases hp
    simpa using h
  · intro h
    exact ⟨fun _ hm => (List.not_mem_nil hm).elim, [], .nil, by simpa using h⟩

/-- A flag that is not boolean. -/
theorem parse_nonbool {kind : Bytes → Option Kind} {float : Bytes → Bool} {s name : Bytes} {value : Option Bytes} {k : Kind}
    (hw : word s = .flag name value) (hk : kind name = some k) (hb : k ≠ .bool) (args : List Bytes) :
    parse kind float (s :: args) =
      match (motive := Option Bytes → List Bytes → Outcome) value, args with
        | some v, args => if valid float k v then (parse kind float args).after (name, v) else .exit false
        | none, [] => .exit false
        | none, v :: args' => if valid float k v then (parse kind float args').after (name, v) else .exit false := by
  rw [parse.eq_def]
  dsimp only
  rw [hw]
  dsimp only
  rw [hk]
  cases k with
  | bool => exact absurd rfl hb
  | int => rfl
  | float => rfl
  | str => rfl

theorem parse_bool {kind : Bytes → Option Kind} {float : Bytes → Bool} {s name : Bytes} {value : Option Bytes}
    (hw : word s = .flag name value) (hk : kind name = some .bool) (args : List Bytes) :
    parse kind float (s :: args) =
      if valid float .bool (value.getD (ascii "true")) then (parse kind float args).after (name, value.getD (ascii "true"))
      else .exit false := by
  rw [parse.eq_def]
  dsimp only
  rw [hw]
  dsimp only
  rw [hk]

/-- **C80.** A command understands exactly the command lines that are a list of settings followed by files,
    and understands them so. -/
theorem parse_iff {kind : Bytes → Option Kind} {float : Bytes → Bool} {sets : List (Bytes × Bytes)} {files : List Bytes} :
    ∀ {args : List Bytes}, parse kind float args = .ok sets files ↔ CommandLine kind float sets files args := by
  have ae : ascii "=" = [61] := by decide
  have main : ∀ (n : Nat) (sets : List (Bytes × Bytes)) (args : List Bytes), args.length ≤ n →
      (parse kind float args = .ok sets files ↔ CommandLine kind float sets files args) := by
    intro n
    induction n with
    | zero =>
      intro sets args hl
      have : args = [] := List.length_eq_zero_iff.mp (by omega)
      subst this
      rw [parse]
      cases sets with
      | nil =>
        rw [commandLine_nil]
        constructor
        · intro h
          injection h with _ h
          subst h
          exact .inl ⟨rfl, fun f hf => by cases hf⟩
        · rintro (⟨rfl, _⟩ | h)
          · rfl
          · cases h
      | cons a sets =>
        rw [commandLine_cons]
        constructor
        · intro h
          injection h with h _
          cases h
        · rintro ⟨-, p, args', hp, h, -⟩
          have h := h.symm
          rw [List.append_eq_nil_iff] at h
          rw [h.1] at hp
          cases hp
    | succ n ih =>
      intro sets args hl
      cases args with
      | nil => exact ih sets [] (by simp)
      | cons s args =>
        have hl : args.length ≤ n := by simpa using hl
        -- what the first argument can be
        have first : ∀ {a : Bytes × Bytes} {p args' : List Bytes}, FlagName a.1 → Written kind a p → s :: args = p ++ args' →
            (∃ v, word s = .flag a.1 (some v) ∧ a.2 = v ∧ args' = args) ∨
            (word s = .flag a.1 none ∧ kind a.1 ≠ some .bool ∧ args = a.2 :: args') ∨
            (word s = .flag a.1 none ∧ kind a.1 = some .bool ∧ a.2 = ascii "true" ∧ args' = args) := by
          intro a p args' hn hp he
          cases hp with
          | @eq n v p hp =>
            injection he with h1 h2
            refine .inl ⟨v, word_flag_iff.mpr ⟨hn, p, hp, ?_⟩, rfl, h2.symm⟩
            rw [h1, ae]
            simp [eqPart]
          | @next n v p hp hk =>
            injection he with h1 h2
            refine .inr (.inl ⟨word_flag_iff.mpr ⟨hn, p, hp, ?_⟩, hk, h2⟩)
            rw [h1]
            simp [eqPart]
          | @bare n p hp hk =>
            injection he with h1 h2
            refine .inr (.inr ⟨word_flag_iff.mpr ⟨hn, p, hp, ?_⟩, hk, rfl, h2.symm⟩)
            rw [h1]
            simp [eqPart]
        cases hw : word s with
        | arg =>
          have hf := word_arg_iff.mp hw
          have e : parse kind float (s :: args) = .ok [] (s :: args) := by
            rw [parse.eq_def]
            dsimp only
            rw [hw]
          rw [e]
          cases sets with
          | nil =>
            rw [commandLine_nil]
            constructor
            · intro h
              injection h with _ h
              subst h
              exact .inl ⟨rfl, fun f h => by injection h with h; rw [← h]; exact hf⟩
            · rintro (⟨rfl, _⟩ | h)
              · rfl
              · injection h with h _
                rw [word_stop_iff.mpr h] at hw
                cases hw
          | cons a sets =>
            rw [commandLine_cons]
            constructor
            · intro h
              injection h with h _
              cases h
            · rintro ⟨hs, p, args', hp, he, -⟩
              rcases first hs.1 hp he with ⟨v, h, -⟩ | ⟨h, -⟩ | ⟨h, -⟩ <;> (rw [hw] at h; cases h)
        | stop =>
          have hst := word_stop_iff.mp hw
          have e : parse kind float (s :: args) = .ok [] args := by
            rw [parse.eq_def]
            dsimp only
            rw [hw]
          rw [e]
          cases sets with
          | nil =>
            rw [commandLine_nil]
            constructor
            · intro h
              injection h with _ h
              subst h
              exact .inr (by rw [hst])
            · rintro (⟨rfl, h⟩ | h)
              · rw [word_arg_iff.mpr (h s rfl)] at hw
                cases hw
              · injection h with _ h
                rw [h]
          | cons a sets =>
            rw [commandLine_cons]
            constructor
            · intro h
              injection h with h _
              cases h
            · rintro ⟨hs, p, args', hp, he, -⟩
              rcases first hs.1 hp he with ⟨v, h, -⟩ | ⟨h, -⟩ | ⟨h, -⟩ <;> (rw [hw] at h; cases h)
        | bad =>
          have e : parse kind float (s :: args) = .exit false := by
            rw [parse.eq_def]
            dsimp only
            rw [hw]
          rw [e]
          constructor
          · intro h; cases h
          · intro h
            cases sets with
            | nil =>
              rcases commandLine_nil.mp h with ⟨h1, h2⟩ | h
              · rw [word_arg_iff.mpr (h2 s (by rw [← h1]; rfl))] at hw
                cases hw
              · injection h with h _
                rw [word_stop_iff.mpr h] at hw
                cases hw
            | cons a sets =>
              obtain ⟨hs, p, args', hp, he, -⟩ := commandLine_cons.mp h
              rcases first hs.1 hp he with ⟨v, h, -⟩ | ⟨h, -⟩ | ⟨h, -⟩ <;> (rw [hw] at h; cases h)
        | flag name value =>
          obtain ⟨hn, p, hp, hse⟩ := word_flag_iff.mp hw
          have nonil : sets = [] → ¬ CommandLine kind float sets files (s :: args) := by
            rintro rfl h
            rcases commandLine_nil.mp h with ⟨h1, h2⟩ | h
            · rw [word_arg_iff.mpr (h2 s (by rw [← h1]; rfl))] at hw
              cases hw
            · injection h with h _
              rw [word_stop_iff.mpr h] at hw
              cases hw
          cases hk : kind name with
          | none =>
            have e : parse kind float (s :: args) = .exit (name = ascii "help" ∨ name = ascii "h") := by
              rw [parse.eq_def]
              dsimp only
              rw [hw]
              dsimp only
              rw [hk]
            rw [e]
            constructor
            · intro h; cases h
            · intro h
              cases sets with
              | nil => exact absurd h (nonil rfl)
              | cons a sets =>
                obtain ⟨hs, p, args', hp, he, -⟩ := commandLine_cons.mp h
                obtain ⟨hs1, k, hs2, -⟩ := hs
                rcases first hs1 hp he with ⟨v, h, -⟩ | ⟨h, -⟩ | ⟨h, -⟩ <;>
                  (rw [hw] at h; injection h with h _; rw [← h, hk] at hs2; cases hs2)
          | some k =>
            by_cases hb : k = .bool
            · subst hb
              rw [parse_bool hw hk]
              constructor
              · intro h
                split at h
                · rename_i hv
                  obtain ⟨sets', rfl, h'⟩ := after_ok.mp h
                  refine commandLine_cons.mpr ⟨⟨hn, _, hk, valid_iff.mp hv⟩, [s], args, ?_, rfl, (ih _ _ hl).mp h'⟩
                  cases value with
                  | none =>
                    have : s = p ++ name := by rw [hse]; simp [eqPart]
                    rw [this]
                    exact .bare hp hk
                  | some v =>
                    have : s = p ++ name ++ ascii "=" ++ v := by rw [hse, ae]; simp [eqPart]
                    rw [this]
                    exact .eq hp
                · cases h
              · intro h
                cases sets with
                | nil => exact absurd h (nonil rfl)
                | cons a sets =>
                  obtain ⟨⟨hs1, k, hs2, hs3⟩, p, args', hp, he, hc⟩ := commandLine_cons.mp h
                  obtain ⟨a1, a2⟩ := a
                  dsimp only at hs1 hs2 hs3
                  rw [← valid_iff] at hs3
                  rcases first hs1 hp he with ⟨v, h, h1, h2⟩ | ⟨h, h1, h2⟩ | ⟨h, h1, h2, h3⟩
                  · rw [hw] at h
                    injection h with e1 e2
                    dsimp only at e1 h1
                    subst e1 e2 h1 h2
                    rw [hk] at hs2
                    injection hs2 with hs2
                    subst hs2
                    refine (if_pos hs3).trans ?_
                    exact after_ok.mpr ⟨sets, rfl, (ih _ _ hl).mpr hc⟩
                  · rw [hw] at h
                    injection h with e1 e2
                    dsimp only at e1 h1
                    rw [← e1] at h1
                    exact absurd hk h1
                  · rw [hw] at h
                    injection h with e1 e2
                    dsimp only at e1 h1 h2
                    subst e1 e2 h2 h3
                    rw [hk] at hs2
                    injection hs2 with hs2
                    subst hs2
                    refine (if_pos hs3).trans ?_
                    exact after_ok.mpr ⟨sets, rfl, (ih _ _ hl).mpr hc⟩
            · have hb' : kind name ≠ some .bool := by
                rw [hk]
                intro e
                injection e with e
                exact hb e
              rw [parse_nonbool hw hk hb]
              cases value with
              | some v =>
                dsimp only
                constructor
                · intro h
                  split at h
                  · rename_i hv
                    obtain ⟨sets', rfl, h'⟩ := after_ok.mp h
                    refine commandLine_cons.mpr ⟨⟨hn, _, hk, valid_iff.mp hv⟩, [s], args, ?_, rfl, (ih _ _ hl).mp h'⟩
                    have : s = p ++ name ++ ascii "=" ++ v := by rw [hse, ae]; simp [eqPart]
                    rw [this]
                    exact .eq hp
                  · cases h
                · intro h
                  cases sets with
                  | nil => exact absurd h (nonil rfl)
                  | cons a sets =>
                    obtain ⟨⟨hs1, k', hs2, hs3⟩, p, args', hp, he, hc⟩ := commandLine_cons.mp h
                    obtain ⟨a1, a2⟩ := a
                    dsimp only at hs1 hs2 hs3
                    rw [← valid_iff] at hs3
                    rcases first hs1 hp he with ⟨v', h, h1, h2⟩ | ⟨h, h1, h2⟩ | ⟨h, h1, h2, h3⟩
                    · rw [hw] at h
                      injection h with e1 e2
                      injection e2 with e2
                      dsimp only at e1 h1
                      subst e1 e2 h1 h2
                      rw [hk] at hs2
                      injection hs2 with hs2
                      subst hs2
                      refine (if_pos hs3).trans ?_
                      exact after_ok.mpr ⟨sets, rfl, (ih _ _ hl).mpr hc⟩
                    · rw [hw] at h
                      injection h with e1 e2
                      cases e2
                    · rw [hw] at h
                      injection h with e1 e2
                      cases e2
              | none =>
                have hs0 : s = p ++ name := by rw [hse]; simp [eqPart]
                cases args with
                | nil =>
                  dsimp only
                  constructor
                  · intro h; cases h
                  · intro h
                    cases sets with
                    | nil => exact absurd h (nonil rfl)
                    | cons a sets =>
                      obtain ⟨⟨hs1, k', hs2, hs3⟩, p, args', hp, he, hc⟩ := commandLine_cons.mp h
                      obtain ⟨a1, a2⟩ := a
                      rcases first hs1 hp he with ⟨v', h, h1, h2⟩ | ⟨h, h1, h2⟩ | ⟨h, h1, h2, h3⟩
                      · rw [hw] at h
                        injection h with e1 e2
                        cases e2
                      · cases h2
                      · rw [hw] at h
                        injection h with e1 e2
                        dsimp only at e1 h1
                        rw [← e1] at h1
                        exact absurd h1 hb'
                | cons v args' =>
                  have hl' : args'.length ≤ n := by simp only [List.length_cons] at hl; omega
                  dsimp only
                  constructor
                  · intro h
                    split at h
                    · rename_i hv
                      obtain ⟨sets', rfl, h'⟩ := after_ok.mp h
                      refine commandLine_cons.mpr ⟨⟨hn, _, hk, valid_iff.mp hv⟩, [s, v], args', ?_, rfl, (ih _ _ hl').mp h'⟩
                      rw [hs0]
                      exact .next hp hb'
                    · cases h
                  · intro h
                    cases sets with
                    | nil => exact absurd h (nonil rfl)
                    | cons a sets =>
                      obtain ⟨⟨hs1, k', hs2, hs3⟩, p, args'', hp, he, hc⟩ := commandLine_cons.mp h
                      obtain ⟨a1, a2⟩ := a
                      dsimp only at hs1 hs2 hs3
                      rw [← valid_iff] at hs3
                      rcases first hs1 hp he with ⟨v', h, h1, h2⟩ | ⟨h, h1, h2⟩ | ⟨h, h1, h2, h3⟩
                      · rw [hw] at h
                        injection h with e1 e2
                        cases e2
                      · rw [hw] at h
                        injection h with e1 e2
                        injection h2 with h2 h3
                        dsimp only at e1 h1 h2
                        subst e1 h2 h3
                        rw [hk] at hs2
                        injection hs2 with hs2
                        subst hs2
                        refine (if_pos hs3).trans ?_
                        exact after_ok.mpr ⟨sets, rfl, (ih _ _ hl').mpr hc⟩
                      · rw [hw] at h
                        injection h with e1 e2
                        dsimp only at e1 h1
                        rw [← e1] at h1
                        exact absurd h1 hb'
  intro args
  exact main args.length sets args le_rfl

/-- The value of a flag is the one set last. -/
theorem get_last {name v : Bytes} {before after : List (Bytes × Bytes)} (h : ∀ s ∈ after, s.1 ≠ name) :
    get (before ++ (name, v) :: after) name = some v := by
  unfold get
  rw [List.foldl_append, List.foldl_cons, if_pos rfl]
  have : ∀ (l : List (Bytes × Bytes)) (r : Option Bytes), (∀ s ∈ l, s.1 ≠ name) →
      l.foldl (fun r a => if a.1 = name then some a.2 else r) r = r := by
    intro l
    induction l with
    | nil => intro r _; rfl
    | cons a l ih =>
      intro r h
      rw [List.foldl_cons, if_neg (h a (by simp))]
      exact ih r fun s hs => h s (by simp [hs])
  exact this after _ h

theorem get_unset {name : Bytes} {sets : List (Bytes × Bytes)} (h : ∀ s ∈ sets, s.1 ≠ name) : get sets name = none := by
  unfold get
  have : ∀ (l : List (Bytes × Bytes)) (r : Option Bytes), (∀ s ∈ l, s.1 ≠ name) →
      l.foldl (fun r a => if a.1 = name then some a.2 else r) r = r := by
    intro l
    induction l with
    | nil => intro r _; rfl
    | cons a l ih =>
      intro r h
      rw [List.foldl_cons, if_neg (h a (by simp))]
      exact ih r fun s hs => h s (by simp [hs])
  exact this sets _ h

end Flag
end StlDice
