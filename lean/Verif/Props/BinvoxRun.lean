import Verif.Props.BinvoxScript
import Verif.Props.CmdLines
import Verif.Props.CutDiceRun
import Verif.Props.DiceRuns

/-! # C82: running the script of binvox-dice -/

namespace StlDice
namespace Spec
open BinVOX Cmd

/-- The file the script has voxcut read for box `n` and argument `a`. -/
def boxBin (a : Bytes) (n : Nat) : Bytes := trimStl a ++ nth n ++ ascii ".binvox"

/-- The file the script has voxcut write for box `n`. -/
def boxStl (n : Nat) : Bytes := ascii "out" ++ nth n ++ ascii ".stl"

/-- Names without surprises: distinct plain names ending in `.stl`, none of them the name of another with a number
    behind it, none of them the name of a result. -/
structure GoodNames (args : List Bytes) : Prop where
  nonempty : args ≠ []
  nodup : args.Nodup
  plain : ∀ a ∈ args, Plain a
  stl : ∀ a ∈ args, ∃ s, a = s ++ ascii ".stl"
  apart : ∀ a ∈ args, ∀ b ∈ args, ∀ k : Nat, trimStl a ≠ trimStl b ++ ascii "_" ++ fmtInt k
  outs : ∀ a ∈ args, ∀ n, a ≠ boxStl n

/-- What binvox makes of argument `a` for box `n`, if anything. -/
def made {F : Type} [GoFloat F] [FloatText F] (tool : Bytes → List Bytes → Option Bytes) (fl : BinvoxDiceFlags) (mbb : Box F) (d : Disk)
    (a : Bytes) (n : Nat) : Option Bytes :=
  (d a).bind fun c => tool c (boxNumbers mbb (axisBoxes fl.factor fl.subX) (axisBoxes fl.factor fl.subY) (axisBoxes fl.factor fl.subZ) n)

/-- The number of boxes. -/
def boxCount (fl : BinvoxDiceFlags) : Nat :=
  axisBoxes fl.factor fl.subX * axisBoxes fl.factor fl.subY * axisBoxes fl.factor fl.subZ

end Spec

namespace Flag
open Spec
variable {kind : Bytes → Option Kind} {float : Bytes → Bool} {sets : List (Bytes × Bytes)}

theorem getBoolD_iff {n : String} (hs : ∀ s ∈ sets, Setting kind float s) (hk : kind (ascii n) = some .bool) {dflt b : Bool} :
    b = Cmd.getBoolD sets (ascii n) dflt ↔ BoolFlagD sets n dflt b := by
  unfold Cmd.getBoolD BoolFlagD
  cases hg : get sets (ascii n) with
  | none =>
    have hl := get_iff.mp hg
    constructor
    · rintro rfl; exact .inl ⟨hl, rfl⟩
    · rintro (⟨_, h⟩ | ⟨v, h, _⟩)
      · exact h
      · cases lastSet_unique hl h
  | some v =>
    have hl := get_iff.mp hg
    have hv : (parseBool v).isSome = true := lastSet_valid hs hk hl
    obtain ⟨j, hj⟩ := Option.isSome_iff_exists.mp hv
    have e : ((some v).bind parseBool).getD dflt = j := by
      show (parseBool v).getD dflt = j
      rw [hj]; rfl
    rw [e]
    constructor
    · rintro rfl; exact .inr ⟨v, hl, parseBool_iff.mp hj⟩
    · rintro (⟨h, _⟩ | ⟨v', h, h'⟩)
      · cases lastSet_unique hl h
      · injection lastSet_unique hl h with e
        rw [← parseBool_iff, ← e, hj] at h'
        injection h' with h'
        exact h'.symm

end Flag

namespace Cmd
open Spec BinVOX GoFloat

/-! ## The command line -/

/-- **C82.** The flags of binvox-dice: `-factor` (8), `-mbb` (none), `-subx`, `-suby` (true), `-subz` (false). -/
theorem binvox_dice_flags_iff {args : List Bytes} {fl : BinvoxDiceFlags} : binvoxDiceFlags args = some fl ↔
    ∃ sets, CommandLine binvoxDiceKind (fun _ => false) sets fl.args args ∧
      IntFlag sets "factor" 8 fl.factor ∧ StrFlag sets "mbb" [] fl.mbb ∧ BoolFlagD sets "subx" true fl.subX ∧
      BoolFlagD sets "suby" true fl.subY ∧ BoolFlagD sets "subz" false fl.subZ := by
  unfold binvoxDiceFlags
  cases hp : Flag.parse binvoxDiceKind (fun _ => false) args with
  | exit b =>
    constructor
    · intro h; cases h
    · rintro ⟨sets, h, -⟩
      rw [Flag.parse_iff.mpr h] at hp
      cases hp
  | ok sets rest =>
    dsimp only
    have hc := Flag.parse_iff.mp hp
    constructor
    · intro h
      injection h with h
      subst h
      exact ⟨sets, hc, (Flag.getInt_iff hc.1 (by decide)).mp rfl, Flag.getStr_iff.mp rfl,
        (Flag.getBoolD_iff hc.1 (by decide)).mp rfl, (Flag.getBoolD_iff hc.1 (by decide)).mp rfl,
        (Flag.getBoolD_iff hc.1 (by decide)).mp rfl⟩
    · rintro ⟨sets', h, h1, h2, h3, h4, h5⟩
      rw [Flag.parse_iff.mpr h] at hp
      injection hp with e1 e2
      subst e1
      have e5 : fl.mbb = Flag.getStr sets' (ascii "mbb") := Flag.getStr_iff.mpr h2
      rw [← (Flag.getInt_iff h.1 (by decide)).mpr h1, ← e5, ← (Flag.getBoolD_iff h.1 (by decide)).mpr h3,
        ← (Flag.getBoolD_iff h.1 (by decide)).mpr h4, ← (Flag.getBoolD_iff h.1 (by decide)).mpr h5, ← e2]

section
variable {F : Type} [GoFloat F] [FloatText F]

/-- **C82.** When binvox-dice succeeds: with at least one file and a `-mbb` it can read (the names having no `%`);
    otherwise it prints nothing. -/
theorem binvox_dice_iff {quote : Bytes → Bytes} {args : List Bytes} {fl : BinvoxDiceFlags} (ha : binvoxDiceFlags args = some fl)
    (hp : ∀ a ∈ fl.args, (37 : UInt8) ∉ trimStl a) {out : Bytes} {e : Exit} :
    BinvoxDiceProc F quote args out e ↔
      (∃ mbb : Box F, fl.args ≠ [] ∧ parseMBB fl.mbb = some mbb ∧ e = .done ∧ out = (diceLines quote fl mbb).flatMap line) ∨
      ((fl.args = [] ∨ parseMBB (F := F) fl.mbb = none) ∧ e = .fatal ∧ out = []) := by
  have hlen : ∀ l : List Bytes, ¬ l.length < 1 ↔ l ≠ [] := by intro l; cases l <;> simp
  constructor
  · intro h
    cases h with
    | usage h => unfold binvoxDiceFlags at ha; rw [h] at ha; cases ha
    | noFile h hn =>
      rw [ha] at h; injection h with h; subst h
      exact .inr ⟨.inl (by by_contra hc; exact (hlen _).mpr hc hn), rfl, rfl⟩
    | badMbb h hn hm =>
      rw [ha] at h; injection h with h; subst h
      exact .inr ⟨.inr hm, rfl, rfl⟩
    | @done _ mbb _ h hn hm ho =>
      rw [ha] at h; injection h with h; subst h
      rw [binvox_script quote fl mbb ((hlen _).mp hn) hp] at ho
      injection ho with ho
      exact .inl ⟨mbb, (hlen _).mp hn, hm, rfl, ho.symm⟩
  · rintro (⟨mbb, hn, hm, rfl, rfl⟩ | ⟨h, rfl, rfl⟩)
    · exact .done ha ((hlen _).mpr hn) hm (binvox_script quote fl mbb hn hp)
    · by_cases hn : fl.args.length < 1
      · exact .noFile ha hn
      · rcases h with h | h
        · exact absurd h ((hlen _).mp hn)
        · exact .badMbb ha hn h

/-! ## The words of the script -/

theorem splitLines_lines : ∀ (ls : List Bytes) (rest : Bytes), (∀ l ∈ ls, (10 : UInt8) ∉ l) →
    splitLines (ls.flatMap (fun l => l ++ [10]) ++ rest) = ls ++ splitLines rest := by
  intro ls
  induction ls with
  | nil => intro rest _; rfl
  | cons l ls ih =>
    intro rest h
    have e : (l :: ls).flatMap (fun l => l ++ [10]) ++ rest = l ++ 10 :: (ls.flatMap (fun l => l ++ [10]) ++ rest) := by
      simp
    rw [e, splitLines_cons _ _ (h l (by simp)), ih rest fun l hl => h l (by simp [hl])]
    rfl

theorem splitSp_hash (s : Bytes) : ∃ w ws, splitSp (35 :: s) = w :: ws ∧ w.head? = some 35 := by
  rw [splitSp, if_neg (by decide)]
  cases splitSp s with
  | nil => exact ⟨_, _, rfl, rfl⟩
  | cons w ws => exact ⟨_, _, rfl, rfl⟩

variable {tool : Bytes → List Bytes → Option Bytes} {lib : GL F}

theorem step_comment {w : Bytes} {ws : List Bytes} (hw : w.head? = some 35) {d d' : Disk} :
    BinvoxStep tool lib d (w :: ws) d' ↔ d' = d := by
  constructor
  · intro h
    generalize he : w :: ws = l at h
    cases h with
    | blank => rfl
    | comment h => rfl
    | binvox h hk hj => injection he with he _; rw [he] at hw; exact absurd hw (by decide)
    | nothing h => rfl
    | voxcut h => injection he with he _; rw [he] at hw; exact absurd hw (by decide)
  · rintro rfl; exact .comment hw

theorem step_blank {d d' : Disk} : BinvoxStep tool lib d [[]] d' ↔ d' = d := by
  constructor
  · intro h
    generalize he : [[]] = l at h
    cases h with
    | blank => rfl
    | comment h => rfl
    | binvox h hk hj => injection he with he _; exact absurd he (by decide)
    | nothing h => rfl
    | voxcut h => injection he with he _; exact absurd he (by decide)
  · rintro rfl; exact .blank

/-- Steps of the script, perhaps with further conditions. -/
structure Steps (tool : Bytes → List Bytes → Option Bytes) (lib : GL F) (step : Disk → List Bytes → Disk → Prop) : Prop where
  sub : ∀ {d ws d'}, step d ws d' → BinvoxStep tool lib d ws d'
  comment : ∀ {d w ws}, w.head? = some 35 → step d (w :: ws) d

variable {step : Disk → List Bytes → Disk → Prop}

/-- Comments do nothing. -/
theorem run_comments (st : Steps tool lib step) : ∀ (hs : List Bytes) {ls : List (List Bytes)} {d d' : Disk}, (∀ h ∈ hs, h.head? = some 35) →
    (ScriptRun step d (hs.map splitSp ++ ls) d' ↔ ScriptRun step d ls d') := by
  intro hs
  induction hs with
  | nil => intro ls d d' _; exact Iff.rfl
  | cons h hs ih =>
    intro ls d d' hh
    obtain ⟨w, ws, e1, e2⟩ : ∃ w ws, splitSp h = w :: ws ∧ w.head? = some 35 := by
      have := hh h (by simp)
      cases h with
      | nil => cases this
      | cons c s => injection this with this; subst this; exact splitSp_hash s
    rw [List.map_cons, List.cons_append, e1]
    constructor
    · intro hr
      cases hr with
      | cons hl hr =>
        rw [(step_comment e2).mp (st.sub hl)] at hr
        exact (ih fun h hm => hh h (by simp [hm])).mp hr
    · intro hr
      exact .cons (st.comment e2) ((ih fun h hm => hh h (by simp [hm])).mpr hr)

/-- The lines of the boxes. -/
def bodyLines (fl : BinvoxDiceFlags) (mbb : Box F) : List (List Bytes) :=
  (List.range (boxCount fl)).flatMap fun n => boxLines (boxNumbers mbb (axisBoxes fl.factor fl.subX) (axisBoxes fl.factor fl.subY)
    (axisBoxes fl.factor fl.subZ) n) fl.args n

theorem clean_nth (n : Nat) : Clean (nth n) := by
  unfold nth
  split
  · unfold Clean; decide
  · exact clean_append.mpr ⟨by unfold Clean; decide, clean_fmtInt (by omega)⟩

omit [GoFloat F] in
theorem clean_fmtG [LawfulFloatText F] (x : F) : Clean (FloatText.fmtG x) := by
  constructor <;> intro hm <;> have := LawfulFloatText.fmt_nospace x _ hm <;> revert this <;> decide

theorem plain_percent {a : Bytes} (h : Plain a) : (37 : UInt8) ∉ trimStl a := by
  have h1 : (37 : UInt8) ∉ a := by intro hm; have := h.1 _ hm; revert this; decide
  by_cases hs : ∃ b, a = b ++ ascii ".stl"
  · obtain ⟨b, rfl⟩ := hs
    rw [(trimStl_spec b).1]
    exact fun hm => h1 (List.mem_append_left _ hm)
  · rw [(trimStl_spec a).2 hs]; exact h1

/-- bash and the lines of the script: comments, and `boxLines` of every box. -/
theorem binvox_shell [LawfulFloatText F] {quote : Bytes → Bytes} {fl : BinvoxDiceFlags} {mbb : Box F} {out : Bytes}
    (hargs : fl.args ≠ []) (hp : ∀ a ∈ fl.args, Plain a) (hq : (10 : UInt8) ∉ quote fl.mbb)
    (ho : binvoxScript quote fl mbb = some out) :
    ∃ hs : List Bytes, (∀ h ∈ hs, h.head? = some 35) ∧ shellWords out = hs.map splitSp ++ bodyLines fl mbb := by
  rw [binvox_script quote fl mbb hargs fun a ha => plain_percent (hp a ha)] at ho
  injection ho with ho
  subst ho
  have hb : shellWords ((bodyLines fl mbb).flatMap line) = bodyLines fl mbb := by
    refine shellWords_lines _ ?_
    intro l hl
    unfold bodyLines at hl
    rw [List.mem_flatMap] at hl
    obtain ⟨n, -, hl⟩ := hl
    unfold boxLines at hl
    rw [List.mem_append, List.mem_cons, List.mem_singleton] at hl
    rcases hl with (rfl | hl) | rfl
    · exact ⟨by simp, by intro w hw; rw [List.mem_singleton] at hw; subst hw; decide⟩
    · obtain ⟨a, ha, rfl⟩ := List.mem_map.mp hl
      refine ⟨by simp, ?_⟩
      intro w hw
      rw [List.mem_append, List.mem_append, List.mem_singleton] at hw
      rcases hw with (hw | hw) | rfl
      · revert w; decide
      · unfold boxNumbers at hw
        simp only [List.mem_cons, List.not_mem_nil, or_false] at hw
        rcases hw with rfl | rfl | rfl | rfl | rfl | rfl <;> exact clean_fmtG _
      · exact clean_plain (hp w ha)
    · refine ⟨by simp, ?_⟩
      intro w hw
      rw [List.mem_append, List.mem_map] at hw
      rcases hw with hw | ⟨a, ha, rfl⟩
      · simp only [List.mem_cons, List.not_mem_nil, or_false] at hw
        rcases hw with rfl | rfl | rfl
        · decide
        · decide
        · exact clean_append.mpr ⟨clean_append.mpr ⟨by unfold Clean; decide, clean_nth n⟩, by unfold Clean; decide⟩
      · exact clean_append.mpr ⟨clean_append.mpr ⟨clean_trim (clean_plain (hp a ha)), clean_nth n⟩, by unfold Clean; decide⟩
  have hd : diceLines quote fl mbb = diceHeader quote fl ++ bodyLines fl mbb := rfl
  rw [hd, List.flatMap_append]
  have hh : (diceHeader quote fl).flatMap line = ((diceHeader quote fl).map fun l => (l.intersperse [32]).flatten).flatMap fun l => l ++ [10] := by
    rw [List.flatMap_map]; rfl
  have hnl : ∀ l ∈ diceHeader quote fl, (∀ w ∈ l, (10 : UInt8) ∉ w) ∧ ∃ w ws, l = w :: ws ∧ w.head? = some 35 := by
    have hf : (10 : UInt8) ∉ fmtInt fl.factor := by
      intro hm
      rcases fmtInt_chars _ _ hm with h | h <;> revert h <;> decide
    have hbt : ∀ b, (10 : UInt8) ∉ boolText b := by decide
    have hat : ∀ a ∈ fl.args, (10 : UInt8) ∉ a := fun a ha => (clean_plain (hp a ha)).2
    have hhd : (10 : UInt8) ∉ ascii "#\t" ++ fl.args.headD [] := by
      rw [List.mem_append]
      rintro (h | h)
      · revert h; decide
      · cases hl : fl.args with
        | nil => exact hargs hl
        | cons a as => rw [hl] at h; exact hat a (by rw [hl]; simp) h
    have htl : ∀ w ∈ fl.args.tail, (10 : UInt8) ∉ w := fun w hw => hat w (List.mem_of_mem_tail hw)
    intro l hl
    unfold diceHeader at hl
    simp only [List.mem_cons, List.not_mem_nil, or_false] at hl
    rcases hl with rfl | rfl | rfl | rfl | rfl | rfl | rfl | rfl | rfl
    · exact ⟨by decide, _, _, rfl, by decide⟩
    · exact ⟨by decide, _, _, rfl, by decide⟩
    · exact ⟨by decide, _, _, rfl, by decide⟩
    · refine ⟨?_, _, _, rfl, by decide⟩
      intro w hw; simp only [List.mem_cons, List.not_mem_nil, or_false] at hw
      rcases hw with rfl | rfl | rfl
      · decide
      · exact hf
      · decide
    · refine ⟨?_, _, _, rfl, by decide⟩
      intro w hw; simp only [List.mem_cons, List.not_mem_nil, or_false] at hw
      rcases hw with rfl | rfl | rfl
      · decide
      · exact hq
      · decide
    · refine ⟨?_, _, _, rfl, by decide⟩
      intro w hw; simp only [List.mem_cons, List.not_mem_nil, or_false] at hw
      rcases hw with rfl | rfl | rfl
      · decide
      · exact hbt _
      · decide
    · refine ⟨?_, _, _, rfl, by decide⟩
      intro w hw; simp only [List.mem_cons, List.not_mem_nil, or_false] at hw
      rcases hw with rfl | rfl | rfl
      · decide
      · exact hbt _
      · decide
    · refine ⟨?_, _, _, rfl, by decide⟩
      intro w hw; simp only [List.mem_cons, List.not_mem_nil, or_false] at hw
      rcases hw with rfl | rfl | rfl
      · decide
      · exact hbt _
      · decide
    · refine ⟨?_, _, _, rfl, rfl⟩
      intro w hw
      rcases List.mem_cons.mp hw with rfl | hw
      · exact hhd
      · exact htl w hw
  unfold shellWords at hb ⊢
  rw [hh, splitLines_lines, List.map_append, hb]
  · refine ⟨_, ?_, rfl⟩
    intro h hm
    obtain ⟨l, hl, rfl⟩ := List.mem_map.mp hm
    obtain ⟨w, ws, rfl, h2⟩ := (hnl l hl).2
    rw [intersperse_append_map]
    cases w with
    | nil => cases h2
    | cons c w => exact h2
  · intro h hm
    obtain ⟨l, hl, rfl⟩ := List.mem_map.mp hm
    intro hm
    rcases mem_flatten_intersperse hm with hm | ⟨w, hw, hm⟩
    · revert hm; decide
    · exact (hnl l hl).1 w hw hm

/-- What bash runs of the script is `boxLines` of every box. -/
theorem binvox_words [LawfulFloatText F] (st : Steps tool lib step) {quote : Bytes → Bytes} {fl : BinvoxDiceFlags} {mbb : Box F} {out : Bytes}
    (hargs : fl.args ≠ []) (hp : ∀ a ∈ fl.args, Plain a) (hq : (10 : UInt8) ∉ quote fl.mbb)
    (ho : binvoxScript quote fl mbb = some out) {d d' : Disk} :
    ScriptRun step d (shellWords out) d' ↔ ScriptRun step d (bodyLines fl mbb) d' := by
  obtain ⟨hs, h1, h2⟩ := binvox_shell hargs hp hq ho
  rw [h2]
  exact run_comments st _ h1

/-! ## Names -/

theorem nth_tail {n : Nat} (h : n ≠ 0) : nth n = 95 :: fmtNat n := by
  unfold nth
  rw [if_neg h, fmtInt_nonneg (by omega)]
  rfl

/-- Numbers behind a last underscore. -/
theorem numbered_tail {s t : Bytes} {i j : Nat} (hi : i ≠ 0) (hj : j ≠ 0) (h : s ++ nth i = t ++ nth j) : s = t ∧ i = j := by
  rw [nth_tail hi, nth_tail hj] at h
  have hr := congrArg List.reverse h
  rw [List.reverse_append, List.reverse_append, List.reverse_cons, List.reverse_cons, List.append_assoc, List.append_assoc] at hr
  have hd : ∀ n : Nat, ∀ c ∈ (fmtNat n).reverse, c ≠ (95 : UInt8) := by
    intro n c hc
    have := fmtNat_digits n c (List.mem_reverse.mp hc)
    rintro rfl
    revert this; decide
  have key : ∀ (a b : Bytes) {x y : Bytes}, (∀ c ∈ a, c ≠ (95 : UInt8)) → (∀ c ∈ b, c ≠ (95 : UInt8)) →
      a ++ ([95] ++ x) = b ++ ([95] ++ y) → a = b ∧ x = y := by
    intro a
    induction a with
    | nil =>
      intro b x y _ hb h
      cases b with
      | nil => injection h with _ h; exact ⟨rfl, h⟩
      | cons c b => injection h with h _; exact absurd h.symm (hb c (by simp))
    | cons c a ih =>
      intro b x y ha hb h
      cases b with
      | nil => injection h with h _; exact absurd h (ha c (by simp))
      | cons c' b =>
        injection h with h1 h2
        obtain ⟨e1, e2⟩ := ih b (fun c hc => ha c (by simp [hc])) (fun c hc => hb c (by simp [hc])) h2
        exact ⟨by rw [h1, e1], e2⟩
  obtain ⟨e1, e2⟩ := key _ _ (hd i) (hd j) hr
  refine ⟨List.reverse_injective e2, ?_⟩
  have := List.reverse_injective e1
  rw [← fmtNat_val i, ← fmtNat_val j, this]

theorem numbered_inj {s : Bytes} {i j : Nat} (h : numbered s i = numbered s j) : i = j := by
  have h : s ++ nth i = s ++ nth j := List.append_cancel_right (h : s ++ nth i ++ ascii ".binvox" = s ++ nth j ++ ascii ".binvox")
  have h0 : ∀ n : Nat, n ≠ 0 → nth n ≠ [] := by
    intro n hn; rw [nth_tail hn]; simp
  by_cases hi : i = 0
  · by_cases hj : j = 0
    · omega
    · subst hi
      exact absurd (List.append_cancel_left h).symm (h0 j hj)
  · by_cases hj : j = 0
    · subst hj
      exact absurd (List.append_cancel_left h) (h0 i hi)
    · exact (numbered_tail hi hj h).2

theorem nth_underscore {n : Nat} (h : n ≠ 0) : nth n = ascii "_" ++ fmtInt n := by
  unfold nth; rw [if_neg h]

theorem numbered_apart {args : List Bytes} (g : GoodNames args) {a b : Bytes} (ha : a ∈ args) (hb : b ∈ args) (hne : a ≠ b) (i j : Nat) :
    numbered (trimStl a) i ≠ numbered (trimStl b) j := by
  intro h
  have h : trimStl a ++ nth i = trimStl b ++ nth j :=
    List.append_cancel_right (h : trimStl a ++ nth i ++ ascii ".binvox" = trimStl b ++ nth j ++ ascii ".binvox")
  have hab : trimStl a ≠ trimStl b := by
    obtain ⟨s, rfl⟩ := g.stl a ha
    obtain ⟨t, rfl⟩ := g.stl b hb
    rw [(trimStl_spec s).1, (trimStl_spec t).1]
    rintro rfl
    exact hne rfl
  have e0 : nth 0 = [] := rfl
  by_cases hi : i = 0
  · subst hi
    rw [e0, List.append_nil] at h
    by_cases hj : j = 0
    · subst hj; rw [e0, List.append_nil] at h; exact hab h
    · rw [nth_underscore hj, ← List.append_assoc] at h
      exact g.apart a ha b hb j h
  · by_cases hj : j = 0
    · subst hj
      rw [e0, List.append_nil, nth_underscore hi, ← List.append_assoc] at h
      exact g.apart b hb a ha i h.symm
    · exact hab (numbered_tail hi hj h).1

theorem stl_ne_numbered (s t : Bytes) (j : Nat) : s ++ ascii ".stl" ≠ numbered t j := by
  intro h
  exact tileStl_ne_bin s (t ++ nth j) h

theorem boxStl_inj {i j : Nat} (h : boxStl i = boxStl j) : i = j := by
  refine numbered_inj (s := ascii "out") ?_
  have h := List.append_cancel_right (h : ascii "out" ++ nth i ++ ascii ".stl" = ascii "out" ++ nth j ++ ascii ".stl")
  exact congrArg (· ++ ascii ".binvox") h

theorem boxStl_ne_nil (n : Nat) : boxStl n ≠ [] := by
  unfold boxStl
  rw [List.append_assoc]
  exact List.cons_ne_nil _ _

/-! ## One line -/

/-- The numbered files of a stem are exactly these. -/
def Files (d : Disk) (stem : Bytes) (l : List Bytes) : Prop := ∀ j, d (numbered stem j) = l[j]?

/-- A binvox line appends what it makes, if anything, to the numbered files. -/
theorem step_binvox {n1 n2 n3 n4 n5 n6 stem : Bytes} {l : List Bytes} {d d' : Disk} (hl : Files d stem l)
    (h : BinvoxStep tool lib d [ascii "binvox", ascii "-pb", ascii "-d", ascii "1024", ascii "-bb", n1, n2, n3, n4, n5, n6, stem ++ ascii ".stl"] d') :
    Files d' stem (l ++ ((d (stem ++ ascii ".stl")).bind fun f => tool f [n1, n2, n3, n4, n5, n6]).toList) ∧
    ∀ m, (∀ j, m ≠ numbered stem j) → d' m = d m := by
  generalize he : [ascii "binvox", ascii "-pb", ascii "-d", ascii "1024", ascii "-bb", n1, n2, n3, n4, n5, n6, stem ++ ascii ".stl"] = ws at h
  cases h with
  | blank => injection he with he _; exact absurd he (by decide)
  | comment h => injection he with he _; rw [← he] at h; exact absurd h (by decide)
  | voxcut h => injection he with he _; exact absurd he (by decide)
  | nothing h =>
    simp only [List.cons.injEq, and_true, true_and] at he
    obtain ⟨rfl, rfl, rfl, rfl, rfl, rfl, he⟩ := he
    rw [← he] at h
    rw [h]
    refine ⟨?_, fun _ _ => rfl⟩
    rw [Option.toList_none, List.append_nil]
    exact hl
  | @binvox _ _ _ _ _ _ stem' c k h hk hj =>
    simp only [List.cons.injEq, and_true, true_and] at he
    obtain ⟨rfl, rfl, rfl, rfl, rfl, rfl, he⟩ := he
    have := List.append_cancel_right he
    subst this
    rw [h, Option.toList_some]
    have hkl : k = l.length := by
      rw [hl k, List.getElem?_eq_none_iff] at hk
      by_contra hne
      exact hj l.length (by omega) (by rw [hl]; exact List.getElem?_eq_none (Nat.le_refl _))
    subst hkl
    refine ⟨?_, fun m hm => put_other _ _ (hm _)⟩
    intro j
    by_cases hjl : j = l.length
    · subst hjl
      rw [put_self, List.getElem?_append_right (Nat.le_refl _), Nat.sub_self]
      rfl
    · rw [put_other _ _ (fun e => hjl (numbered_inj e)), hl j]
      by_cases hlt : j < l.length
      · rw [List.getElem?_append_left hlt]
      · rw [List.getElem?_eq_none (by omega), List.getElem?_eq_none (by simp; omega)]

theorem step_voxcut {o : Bytes} {files : List Bytes} {d d' : Disk} (h : BinvoxStep tool lib d (ascii "voxcut" :: ascii "-ostl" :: o :: files) d') :
    ∃ e, VoxcutRun (F := F) lib d (stlFlags o files) d' e := by
  generalize he : ascii "voxcut" :: ascii "-ostl" :: o :: files = ws at h
  cases h with
  | blank => injection he with he _; exact absurd he (by decide)
  | comment h => injection he with he _; rw [← he] at h; exact absurd h (by decide)
  | binvox => injection he with he _; exact absurd he (by decide)
  | nothing => injection he with he _; exact absurd he (by decide)
  | voxcut h =>
    injection he with _ he
    injection he with _ he
    injection he with h1 h2
    subst h1 h2
    exact ⟨_, h⟩

/-- The words of a binvox line. -/
def toolLine (ns : List Bytes) (a : Bytes) : List Bytes :=
  [ascii "binvox", ascii "-pb", ascii "-d", ascii "1024", ascii "-bb"] ++ ns ++ [a]

/-- The binvox lines of one box. -/
theorem run_tools {args : List Bytes} (g : GoodNames args) {n1 n2 n3 n4 n5 n6 : Bytes} {l : Bytes → List Bytes} : ∀ (as : List Bytes) {d d' : Disk},
    as.Nodup → (∀ a ∈ as, a ∈ args) → (∀ a ∈ as, Files d (trimStl a) (l a)) →
    ScriptRun (BinvoxStep tool lib) d (as.map (toolLine [n1, n2, n3, n4, n5, n6])) d' →
    (∀ a ∈ as, Files d' (trimStl a) (l a ++ ((d a).bind fun f => tool f [n1, n2, n3, n4, n5, n6]).toList)) ∧
    ∀ m, (∀ a ∈ as, ∀ j, m ≠ numbered (trimStl a) j) → d' m = d m := by
  intro as
  induction as with
  | nil =>
    intro d d' _ _ _ h
    cases h
    exact ⟨fun a ha => (List.not_mem_nil ha).elim, fun _ _ => rfl⟩
  | cons a as ih =>
    intro d d'' hnd hsub hf h
    rw [List.nodup_cons] at hnd
    cases h with
    | @cons _ _ d' _ _ hl hr =>
      obtain ⟨s, hs⟩ := g.stl a (hsub a (by simp))
      have hts : trimStl a = s := by rw [hs]; exact (trimStl_spec s).1
      have hl : BinvoxStep tool lib d [ascii "binvox", ascii "-pb", ascii "-d", ascii "1024", ascii "-bb", n1, n2, n3, n4, n5, n6, s ++ ascii ".stl"] d' := by
        rw [← hs]; exact hl
      obtain ⟨h1, h2⟩ := step_binvox (hts ▸ hf a (by simp)) hl
      have hne : ∀ b ∈ as, b ≠ a := fun b hb e => hnd.1 (e ▸ hb)
      have hkeep : ∀ b ∈ as, Files d' (trimStl b) (l b) := by
        intro b hb j
        rw [h2 _ fun i => hts ▸ numbered_apart g (hsub b (by simp [hb])) (hsub a (by simp)) (hne b hb) j i]
        exact hf b (by simp [hb]) j
      have hstl : ∀ b ∈ args, d' b = d b := by
        intro b hb
        obtain ⟨t, rfl⟩ := g.stl b hb
        exact h2 _ fun j => stl_ne_numbered t s j
      obtain ⟨i1, i2⟩ := ih hnd.2 (fun b hb => hsub b (by simp [hb])) hkeep hr
      refine ⟨?_, ?_⟩
      · intro b hb
        rcases List.mem_cons.mp hb with rfl | hb
        · intro j
          rw [i2 _ fun c hc i => numbered_apart g (hsub b (by simp)) (hsub c (by simp [hc])) (hne c hc).symm j i, hts, h1 j, hs]
        · have := i1 b hb
          rw [hstl b (hsub b (by simp [hb]))] at this
          exact this
      · intro m hm
        rw [i2 m fun b hb => hm b (by simp [hb]), h2 m fun j => hts ▸ hm a (by simp) j]

theorem boxNumbers_six (mbb : Box F) (fx fy fz n : Nat) : ∃ n1 n2 n3 n4 n5 n6, boxNumbers mbb fx fy fz n = [n1, n2, n3, n4, n5, n6] :=
  ⟨_, _, _, _, _, _, rfl⟩

/-- The words of the voxcut line of box `n`. -/
def voxcutWords (args : List Bytes) (n : Nat) : List Bytes :=
  ascii "voxcut" :: ascii "-ostl" :: boxStl n :: args.map fun a => boxBin a n

/-- The lines of one box. -/
theorem run_box (st : Steps tool lib step) {args : List Bytes} (g : GoodNames args) {ns : List Bytes} (hns : ∃ n1 n2 n3 n4 n5 n6, ns = [n1, n2, n3, n4, n5, n6])
    {n : Nat} {l : Bytes → List Bytes} {d d' : Disk} (hf : ∀ a ∈ args, Files d (trimStl a) (l a))
    (h : ScriptRun step d (boxLines ns args n) d') :
    ∃ D, step D (voxcutWords args n) d' ∧
      (∀ a ∈ args, Files D (trimStl a) (l a ++ ((d a).bind fun f => tool f ns).toList)) ∧
      (∀ a ∈ args, Files d' (trimStl a) (l a ++ ((d a).bind fun f => tool f ns).toList)) ∧
      (∀ m, (∀ a ∈ args, ∀ j, m ≠ numbered (trimStl a) j) → D m = d m) ∧
      (∀ m, m ≠ [] → m ≠ boxStl n → d' m = D m) := by
  obtain ⟨n1, n2, n3, n4, n5, n6, rfl⟩ := hns
  unfold boxLines at h
  rw [List.cons_append] at h
  cases h with
  | cons hb h =>
    rw [step_blank.mp (st.sub hb)] at h
    obtain ⟨D, hr, hv⟩ := scriptRun_append h
    have hr := scriptRun_congr (step' := BinvoxStep tool lib) (fun _ _ _ _ => st.sub) hr
    obtain ⟨h1, h2⟩ := run_tools g args g.nodup (fun _ h => h) hf hr
    cases hv with
    | cons hv hnil =>
      cases hnil
      obtain ⟨e, hv'⟩ := step_voxcut (st.sub hv)
      have ht : ∀ m, m ≠ [] → m ≠ boxStl n → d' m = D m := by
        intro m h0 hm
        exact (voxcut_touches hv').1 m h0 h0 hm
      refine ⟨D, hv, h1, ?_, h2, ht⟩
      intro a ha j
      rw [ht, h1 a ha j]
      · unfold numbered; intro h; exact absurd (List.append_eq_nil_iff.mp h).2 (by decide)
      · exact fun h => stl_ne_numbered (ascii "out" ++ nth n) (trimStl a) j h.symm

/-- Running the lines of the first `N` boxes. -/
theorem body_run (st : Steps tool lib step) {fl : BinvoxDiceFlags} {mbb : Box F} (g : GoodNames fl.args)
    {d d' : Disk} {left : Bytes → List Bytes} (hleft : ∀ a ∈ fl.args, ∀ j, d (boxBin a j) = (left a)[j]?) {N : Nat}
    (h : ScriptRun step d ((List.range N).flatMap fun n => boxLines (boxNumbers mbb (axisBoxes fl.factor fl.subX) (axisBoxes fl.factor fl.subY)
      (axisBoxes fl.factor fl.subZ) n) fl.args n) d') :
    (∀ n < N, ∃ D D', step D (voxcutWords fl.args n) D' ∧
      (∀ a ∈ fl.args, ∀ j, D (boxBin a j) = (left a ++ (List.range (n + 1)).filterMap (made tool fl mbb d a))[j]?) ∧
      D (boxStl n) = d (boxStl n) ∧ d' (boxStl n) = D' (boxStl n)) ∧
    (∀ a ∈ fl.args, ∀ j, d' (boxBin a j) = (left a ++ (List.range N).filterMap (made tool fl mbb d a))[j]?) ∧
    ∀ m, m ≠ [] → (∀ n < N, m ≠ boxStl n) → (∀ a ∈ fl.args, ∀ j, m ≠ boxBin a j) → d' m = d m := by
  have hmono : ∀ n j, ∀ a ∈ fl.args, boxStl n ≠ numbered (trimStl a) j := fun n j a _ => stl_ne_numbered _ _ _
  induction N generalizing d' with
  | zero =>
    cases h
    exact ⟨fun n hn => by omega, fun a ha j => by simpa using hleft a ha j, fun _ _ _ _ => rfl⟩
  | succ N ih =>
    rw [List.range_succ, List.flatMap_append, List.flatMap_cons, List.flatMap_nil, List.append_nil] at h
    obtain ⟨d1, hr, hb⟩ := scriptRun_append h
    obtain ⟨i1, i2, i3⟩ := ih hr
    have hd1 : ∀ a ∈ fl.args, d1 a = d a := by
      intro a ha
      refine i3 a (g.plain a ha).2.2.1 (fun n _ => g.outs a ha n) ?_
      intro b _ j
      obtain ⟨s, rfl⟩ := g.stl a ha
      exact stl_ne_numbered s _ j
    obtain ⟨D, hv, v1, v2, v3, v4⟩ := run_box st g (boxNumbers_six mbb _ _ _ N)
      (l := fun a => left a ++ (List.range N).filterMap (made tool fl mbb d a)) (fun a ha j => i2 a ha j) hb
    have hl : ∀ a ∈ fl.args, left a ++ (List.range N).filterMap (made tool fl mbb d a) ++ ((d1 a).bind fun f => tool f
        (boxNumbers mbb (axisBoxes fl.factor fl.subX) (axisBoxes fl.factor fl.subY) (axisBoxes fl.factor fl.subZ) N)).toList =
        left a ++ (List.range (N + 1)).filterMap (made tool fl mbb d a) := by
      intro a ha
      rw [hd1 a ha, List.range_succ, List.filterMap_append, List.append_assoc]
      have e : (d a).bind (fun f => tool f (boxNumbers mbb (axisBoxes fl.factor fl.subX) (axisBoxes fl.factor fl.subY)
        (axisBoxes fl.factor fl.subZ) N)) = made tool fl mbb d a N := rfl
      rw [e, List.filterMap_cons, List.filterMap_nil]
      cases made tool fl mbb d a N <;> rfl
    refine ⟨?_, ?_, ?_⟩
    · intro n hn
      by_cases hnN : n < N
      · obtain ⟨D0, D0', w1, w2, w3, w4⟩ := i1 n hnN
        refine ⟨D0, D0', w1, w2, w3, ?_⟩
        rw [v4 _ (boxStl_ne_nil n) (fun h => by have := boxStl_inj h; omega), v3 _ fun a ha j => hmono n j a ha, w4]
      · have : n = N := by omega
        subst this
        refine ⟨D, d', hv, ?_, ?_, rfl⟩
        · intro a ha j
          rw [← hl a ha]
          exact v1 a ha j
        · rw [v3 _ fun a ha j => hmono n j a ha]
          refine i3 _ (boxStl_ne_nil n) (fun k hk h => by have := boxStl_inj h; omega) (fun a ha j => hmono n j a ha)
    · intro a ha j
      rw [← hl a ha]
      exact v2 a ha j
    · intro m h0 hm hm'
      rw [v4 m h0 (hm N (by omega)), v3 m hm', i3 m h0 (fun n hn => hm n (by omega)) hm']

/-- Running the script.  If the numbered binvox files of argument `a` are at the start `left a`, then
    the voxcut line of box `n` finds under the numbers of `a` those and behind them what binvox made for the boxes
    up to `n`; it writes `out`, `out_1`, …, and no other file changes. -/
theorem steps_run [LawfulFloatText F] (st : Steps tool lib step) {quote : Bytes → Bytes} {fl : BinvoxDiceFlags} {mbb : Box F} {out : Bytes}
    (g : GoodNames fl.args) (hq : (10 : UInt8) ∉ quote fl.mbb) (ho : binvoxScript quote fl mbb = some out)
    {d d' : Disk} {left : Bytes → List Bytes} (hleft : ∀ a ∈ fl.args, ∀ j, d (boxBin a j) = (left a)[j]?)
    (h : ScriptRun step d (shellWords out) d') :
    (∀ n < boxCount fl, ∃ D D', step D (voxcutWords fl.args n) D' ∧
      (∀ a ∈ fl.args, ∀ j, D (boxBin a j) = (left a ++ (List.range (n + 1)).filterMap (made tool fl mbb d a))[j]?) ∧
      D (boxStl n) = d (boxStl n) ∧ d' (boxStl n) = D' (boxStl n)) ∧
    (∀ a ∈ fl.args, ∀ j, d' (boxBin a j) = (left a ++ (List.range (boxCount fl)).filterMap (made tool fl mbb d a))[j]?) ∧
    ∀ m, m ≠ [] → (∀ n < boxCount fl, m ≠ boxStl n) → (∀ a ∈ fl.args, ∀ j, m ≠ boxBin a j) → d' m = d m := by
  rw [binvox_words st g.nonempty g.plain hq ho] at h
  exact body_run st g hleft h

/-- **C82 (names).** Running the script.  If the numbered binvox files of argument `a` are at the start `left a`, then
    the voxcut line of box `n` finds under the numbers of `a` those and behind them what binvox made for the boxes
    up to `n`; it writes `out`, `out_1`, …, and no other file changes. -/
theorem binvox_runs [LawfulFloatText F] {quote : Bytes → Bytes} {fl : BinvoxDiceFlags} {mbb : Box F} {out : Bytes}
    (g : GoodNames fl.args) (hq : (10 : UInt8) ∉ quote fl.mbb) (ho : binvoxScript quote fl mbb = some out)
    {d d' : Disk} {left : Bytes → List Bytes} (hleft : ∀ a ∈ fl.args, ∀ j, d (boxBin a j) = (left a)[j]?)
    (h : ScriptRun (BinvoxStep tool lib) d (shellWords out) d') :
    (∀ n < boxCount fl, ∃ D D' e, VoxcutRun (F := F) lib D (stlFlags (boxStl n) (fl.args.map fun a => boxBin a n)) D' e ∧
      (∀ a ∈ fl.args, ∀ j, D (boxBin a j) = (left a ++ (List.range (n + 1)).filterMap (made tool fl mbb d a))[j]?) ∧
      D (boxStl n) = d (boxStl n) ∧ d' (boxStl n) = D' (boxStl n)) ∧
    (∀ a ∈ fl.args, ∀ j, d' (boxBin a j) = (left a ++ (List.range (boxCount fl)).filterMap (made tool fl mbb d a))[j]?) ∧
    ∀ m, m ≠ [] → (∀ n < boxCount fl, m ≠ boxStl n) → (∀ a ∈ fl.args, ∀ j, m ≠ boxBin a j) → d' m = d m := by
  obtain ⟨h1, h2, h3⟩ := steps_run ⟨fun h => h, fun h => .comment h⟩ g hq ho hleft h
  refine ⟨?_, h2, h3⟩
  intro n hn
  obtain ⟨D, D', hs, e1, e2, e3⟩ := h1 n hn
  obtain ⟨e, hv⟩ := step_voxcut hs
  exact ⟨D, D', e, hv, e1, e2, e3⟩

/-- A line in which voxcut can write its file: it fails only if it has no model. -/
def GoodBox (tool : Bytes → List Bytes → Option Bytes) (lib : GL F) (d : Disk) (ws : List Bytes) (d' : Disk) : Prop :=
  BinvoxStep tool lib d ws d' ∧ ∀ o files, ws = ascii "voxcut" :: ascii "-ostl" :: o :: files →
    cutModel (F := F) d (stlFlags o files) ≠ none → VoxcutRun (F := F) lib d (stlFlags o files) d' .done

theorem goodBox_steps : Steps tool lib (GoodBox tool lib) where
  sub h := h.1
  comment h := ⟨.comment h, fun o files e _ => by injection e with e _; rw [e] at h; exact absurd h (by decide)⟩

theorem filterMap_all {α β : Type} {f : α → Option β} {g : α → β} : ∀ (l : List α), (∀ x ∈ l, f x = some (g x)) → l.filterMap f = l.map g := by
  intro l
  induction l with
  | nil => intro _; rfl
  | cons x l ih =>
    intro h
    rw [List.filterMap_cons, h x (by simp), ih fun y hy => h y (by simp [hy])]
    rfl

/-- **C82 (meaning).** Names without surprises, no numbered binvox files at the start, and binvox makes a file for
    every argument and box: then `boxBin a n` is the file of box `n` of `a`, and `out`, `out_1`, … are the meshes of what
    voxcut leaves of the files of box 0, 1, …; where nothing is left there is no new file. -/
theorem binvox_good_run [LawfulFloatText F] {quote : Bytes → Bytes} {fl : BinvoxDiceFlags} {mbb : Box F} {out : Bytes}
    (g : GoodNames fl.args) (hq : (10 : UInt8) ∉ quote fl.mbb) (ho : binvoxScript quote fl mbb = some out)
    {d d' : Disk} (hfresh : ∀ a ∈ fl.args, ∀ j, d (boxBin a j) = none) {c : Bytes → Nat → Bytes}
    (hmade : ∀ a ∈ fl.args, ∀ n < boxCount fl, made tool fl mbb d a n = some (c a n))
    (h : ScriptRun (GoodBox tool lib) d (shellWords out) d') :
    ∀ n < boxCount fl, (∀ a ∈ fl.args, d' (boxBin a n) = some (c a n)) ∧
      ((cutModel (F := F) d' (stlFlags (boxStl n) (fl.args.map fun a => boxBin a n)) = none ∧ d' (boxStl n) = d (boxStl n)) ∨
        ∃ b tris, cutModel (F := F) d' (stlFlags (boxStl n) (fl.args.map fun a => boxBin a n)) = some b ∧ ToMeshRun lib b tris ∧
          d' (boxStl n) = some (lib.stl tris)) := by
  obtain ⟨h1, h2, -⟩ := steps_run (left := fun _ => []) goodBox_steps g hq ho (fun a ha j => by rw [hfresh a ha j]; rfl) h
  have hget : ∀ a ∈ fl.args, ∀ n N, n < N → N ≤ boxCount fl → ((List.range N).filterMap (made tool fl mbb d a))[n]? = some (c a n) := by
    intro a ha n N hn hN
    rw [filterMap_all (g := c a) _ fun x hx => hmade a ha x (by rw [List.mem_range] at hx; omega), List.getElem?_map,
      List.getElem?_range hn]
    rfl
  intro n hn
  have hfin : ∀ a ∈ fl.args, d' (boxBin a n) = some (c a n) := by
    intro a ha
    rw [h2 a ha n, List.nil_append]
    exact hget a ha n _ hn (Nat.le_refl _)
  refine ⟨hfin, ?_⟩
  obtain ⟨D, D', hs, e1, e2, e3⟩ := h1 n hn
  have hcm : cutModel (F := F) d' (stlFlags (boxStl n) (fl.args.map fun a => boxBin a n)) =
      cutModel D (stlFlags (boxStl n) (fl.args.map fun a => boxBin a n)) := by
    refine cutModel_congr ?_
    intro f hf
    obtain ⟨a, ha, rfl⟩ := List.mem_map.mp hf
    rw [hfin a ha, e1 a ha n, List.nil_append]
    exact (hget a ha n _ (by omega) (by omega)).symm
  rw [hcm]
  cases hm : cutModel (F := F) D (stlFlags (boxStl n) (fl.args.map fun a => boxBin a n)) with
  | none =>
    left
    refine ⟨rfl, ?_⟩
    obtain ⟨e, hv⟩ := step_voxcut hs.1
    rw [e3, ((voxcut_touches hv).2 hm).1, e2]
  | some b =>
    right
    obtain ⟨b', hb, hstl, -⟩ := voxcut_done (hs.2 _ _ rfl (by rw [hm]; simp))
    rw [hm] at hb
    injection hb with hb
    subst hb
    obtain ⟨tris, ht, hd⟩ := hstl (boxStl_ne_nil n)
    exact ⟨b, tris, rfl, ht, by rw [e3]; exact hd⟩

/-- **C82 (left-over file).** If only `a.binvox` of argument `a` is left over from an earlier run, voxcut reads it for
    box 0, and for every later box the file of the box before. -/
theorem binvox_left_over [LawfulFloatText F] {quote : Bytes → Bytes} {fl : BinvoxDiceFlags} {mbb : Box F} {out : Bytes}
    (g : GoodNames fl.args) (hq : (10 : UInt8) ∉ quote fl.mbb) (ho : binvoxScript quote fl mbb = some out)
    {d d' : Disk} {left : Bytes → List Bytes} (hleft : ∀ a ∈ fl.args, ∀ j, d (boxBin a j) = (left a)[j]?)
    (h : ScriptRun (BinvoxStep tool lib) d (shellWords out) d') {a : Bytes} (ha : a ∈ fl.args) {old : Bytes} (hold : left a = [old])
    {c : Nat → Bytes} (hmade : ∀ n < boxCount fl, made tool fl mbb d a n = some (c n)) :
    ∀ n < boxCount fl, ∃ D D' e, VoxcutRun (F := F) lib D (stlFlags (boxStl n) (fl.args.map fun a => boxBin a n)) D' e ∧
      D (boxBin a n) = some (if n = 0 then old else c (n - 1)) ∧ d' (boxStl n) = D' (boxStl n) := by
  intro n hn
  obtain ⟨D, D', e, hv, e1, -, e3⟩ := (binvox_runs g hq ho hleft h).1 n hn
  refine ⟨D, D', e, hv, ?_, e3⟩
  rw [e1 a ha n, hold, filterMap_all (g := c) _ fun x hx => hmade x (by rw [List.mem_range] at hx; omega)]
  cases n with
  | zero => rfl
  | succ n =>
    rw [List.singleton_append, List.getElem?_cons_succ, List.getElem?_map, List.getElem?_range (by omega)]
    rfl

/-- **C82 (missing file).** If binvox makes nothing of argument `a` for box `m`, then for box `m` and every later one
    voxcut finds no file of `a`, whatever binvox made of `a` for the later boxes. -/
theorem binvox_missing [LawfulFloatText F] {quote : Bytes → Bytes} {fl : BinvoxDiceFlags} {mbb : Box F} {out : Bytes}
    (g : GoodNames fl.args) (hq : (10 : UInt8) ∉ quote fl.mbb) (ho : binvoxScript quote fl mbb = some out)
    {d d' : Disk} {left : Bytes → List Bytes} (hleft : ∀ a ∈ fl.args, ∀ j, d (boxBin a j) = (left a)[j]?)
    (h : ScriptRun (BinvoxStep tool lib) d (shellWords out) d') {a : Bytes} (ha : a ∈ fl.args) (hfresh : left a = [])
    {m : Nat} (hm : made tool fl mbb d a m = none) :
    ∀ n < boxCount fl, m ≤ n → ∃ D D' e, VoxcutRun (F := F) lib D (stlFlags (boxStl n) (fl.args.map fun a => boxBin a n)) D' e ∧
      D (boxBin a n) = none ∧ d' (boxStl n) = D' (boxStl n) ∧
      (fl.args.head? = some a → e = .fatal ∧ d' (boxStl n) = d (boxStl n)) := by
  intro n hn hmn
  obtain ⟨D, D', e, hv, e1, e2, e3⟩ := (binvox_runs g hq ho hleft h).1 n hn
  have hnone : D (boxBin a n) = none := by
    rw [e1 a ha n, hfresh, List.nil_append, List.getElem?_eq_none_iff]
    have hsplit : List.range (n + 1) = List.range m ++ m :: (List.range (n - m)).map (m + 1 + ·) := by
      have : n + 1 = m + (1 + (n - m)) := by omega
      rw [this, List.range_add, List.range_add]
      simp [List.map_map, Function.comp_def, Nat.add_assoc]
    rw [hsplit, List.filterMap_append, List.filterMap_cons, hm]
    dsimp only
    rw [List.length_append]
    have l1 := List.length_filterMap_le (made tool fl mbb d a) (List.range m)
    have l2 := List.length_filterMap_le (made tool fl mbb d a) ((List.range (n - m)).map (m + 1 + ·))
    rw [List.length_range] at l1
    rw [List.length_map, List.length_range] at l2
    omega
  refine ⟨D, D', e, hv, hnone, e3, ?_⟩
  intro hhead
  have hcm : cutModel (F := F) D (stlFlags (boxStl n) (fl.args.map fun a => boxBin a n)) = none := by
    obtain ⟨rest, hr⟩ : ∃ rest, fl.args = a :: rest := by
      cases hargs : fl.args with
      | nil => rw [hargs] at hhead; cases hhead
      | cons x rest => rw [hargs] at hhead; injection hhead with hx; exact ⟨rest, by rw [hx]⟩
    rw [hr]
    have hread : BinVOX.Read (F := F) (input D (boxBin a n)) ⟨0, 0, 0, 0, 0, 0⟩ = none := by
      unfold input
      rw [hnone]
      rfl
    unfold cutModel stlFlags
    rw [List.map_cons]
    dsimp only
    rw [hread]
    split <;> rfl
  obtain ⟨w1, w2⟩ := (voxcut_touches hv).2 hcm
  exact ⟨w2, by rw [e3, w1, e2]⟩

/-- **C82 (colliding names).** With `s.stl` and `s_1.stl` as arguments, the file `s_1.binvox` that voxcut reads as the base of
    box 1 is the file of box 0 of `s_1.stl`. -/
theorem binvox_collide [LawfulFloatText F] {quote : Bytes → Bytes} {fl : BinvoxDiceFlags} {mbb : Box F} {out s : Bytes}
    (hargs : fl.args = [s ++ ascii ".stl", s ++ ascii "_1.stl"]) (hp : ∀ a ∈ fl.args, Plain a)
    (hq : (10 : UInt8) ∉ quote fl.mbb) (ho : binvoxScript quote fl mbb = some out) (hN : 2 ≤ boxCount fl)
    {d d' : Disk} (hfresh : ∀ a ∈ fl.args, ∀ j, d (boxBin a j) = none) {c0 e0 : Bytes}
    (hc0 : made tool fl mbb d (s ++ ascii ".stl") 0 = some c0) (he0 : made tool fl mbb d (s ++ ascii "_1.stl") 0 = some e0)
    (h : ScriptRun (BinvoxStep tool lib) d (shellWords out) d') :
    ∃ D D' e, VoxcutRun (F := F) lib D (stlFlags (ascii "out_1.stl") [s ++ ascii "_1.binvox", s ++ ascii "_1_1.binvox"]) D' e ∧
      D (s ++ ascii "_1.binvox") = made tool fl mbb d (s ++ ascii "_1.stl") 0 := by
  have st : Steps tool lib (BinvoxStep tool lib) := ⟨fun h => h, fun h => .comment h⟩
  rw [binvox_words st (by rw [hargs]; simp) hp hq ho] at h
  have ea : s ++ ascii "_1.stl" = (s ++ ascii "_1") ++ ascii ".stl" := by
    rw [List.append_assoc]; rfl
  have eb : numbered s 1 = numbered (s ++ ascii "_1") 0 := by
    unfold numbered
    simp only [List.append_assoc]
    rfl
  have t1 : trimStl (s ++ ascii ".stl") = s := (trimStl_spec s).1
  have t2 : trimStl (s ++ ascii "_1.stl") = s ++ ascii "_1" := by rw [ea]; exact (trimStl_spec _).1
  obtain ⟨M, hM⟩ : ∃ M, boxCount fl = 2 + M := ⟨boxCount fl - 2, by omega⟩
  unfold bodyLines at h
  rw [hM, List.range_add, List.flatMap_append] at h
  obtain ⟨dm, h, -⟩ := scriptRun_append h
  have e2 : List.range 2 = [0, 1] := rfl
  rw [e2, List.flatMap_cons, List.flatMap_cons, List.flatMap_nil, List.append_nil] at h
  obtain ⟨d4, hb0, hb1⟩ := scriptRun_append h
  obtain ⟨p1, p2, p3, p4, p5, p6, hn0⟩ := boxNumbers_six mbb (axisBoxes fl.factor fl.subX) (axisBoxes fl.factor fl.subY) (axisBoxes fl.factor fl.subZ) 0
  obtain ⟨q1, q2, q3, q4, q5, q6, hn1⟩ := boxNumbers_six mbb (axisBoxes fl.factor fl.subX) (axisBoxes fl.factor fl.subY) (axisBoxes fl.factor fl.subZ) 1
  unfold made at hc0 he0 ⊢
  rw [hn0] at hb0 hc0 he0 ⊢
  rw [hn1] at hb1
  rw [he0]
  unfold boxLines at hb0 hb1
  rw [hargs] at hb0 hb1
  -- box 0
  cases hb0 with
  | @cons _ _ d1 _ _ hl hb0 =>
  rw [step_blank.mp hl] at hb0
  cases hb0 with
  | @cons _ _ d2 _ _ s1 hb0 =>
  cases hb0 with
  | @cons _ _ d3 _ _ s2 hb0 =>
  cases hb0 with
  | cons s3 hb0 =>
  cases hb0
  have hf1 : Files d s [] := fun j => by
    have := hfresh (s ++ ascii ".stl") (by rw [hargs]; simp) j
    unfold boxBin at this; rw [t1] at this; exact this
  have hf2 : Files d (s ++ ascii "_1") [] := fun j => by
    have := hfresh (s ++ ascii "_1.stl") (by rw [hargs]; simp) j
    unfold boxBin at this; rw [t2] at this; exact this
  have hnum : ∀ i j, numbered (s ++ ascii "_1") i = numbered s j → i = 0 ∧ j = 1 := by
    intro i j h
    have h : s ++ ascii "_1" ++ nth i = s ++ nth j :=
      List.append_cancel_right (h : s ++ ascii "_1" ++ nth i ++ ascii ".binvox" = s ++ nth j ++ ascii ".binvox")
    by_cases hi : i = 0
    · subst hi
      refine ⟨rfl, numbered_inj (s := s) ?_⟩
      unfold numbered
      have h : s ++ nth j = s ++ ascii "_1" := by rw [← h]; exact List.append_nil _
      exact congrArg (· ++ ascii ".binvox") h
    · by_cases hj : j = 0
      · subst hj
        rw [List.append_assoc] at h
        exact absurd (List.append_cancel_left h) (by intro h; cases h)
      · have := (numbered_tail hi hj h).1
        have := congrArg List.length this
        simp only [List.length_append] at this
        have h2 : (ascii "_1").length = 2 := by decide
        omega
  obtain ⟨a1, a2⟩ := step_binvox hf1 (s1 : BinvoxStep tool lib d [ascii "binvox", ascii "-pb", ascii "-d", ascii "1024", ascii "-bb", p1, p2, p3, p4, p5, p6, s ++ ascii ".stl"] d2)
  rw [hc0] at a1
  have hf2' : Files d2 (s ++ ascii "_1") [] := by
    intro j
    by_cases hj : j = 0
    · subst hj; rw [← eb, a1 1]; rfl
    · rw [a2 _ fun i h => hj (hnum _ _ h).1]; exact hf2 j
  rw [ea] at s2
  obtain ⟨b1, b2⟩ := step_binvox hf2' (s2 : BinvoxStep tool lib d2 [ascii "binvox", ascii "-pb", ascii "-d", ascii "1024", ascii "-bb", p1, p2, p3, p4, p5, p6, (s ++ ascii "_1") ++ ascii ".stl"] d3)
  have hd2 : d2 (s ++ ascii "_1.stl") = d (s ++ ascii "_1.stl") := by
    rw [ea]; exact a2 _ fun j => stl_ne_numbered _ _ j
  rw [← ea, hd2, he0] at b1
  have hg1 : d3 (numbered s 1) = some e0 := by rw [eb]; exact b1 0
  have hg0 : d3 (numbered s 0) = some c0 := by
    rw [b2 _ fun i h => by have := (hnum _ _ h.symm).2; omega]; exact a1 0
  have hg2 : ∀ j, d3 (numbered s (j + 2)) = none := by
    intro j
    rw [b2 _ fun i h => by have := (hnum _ _ h.symm).2; omega]; exact a1 (j + 2)
  have hF3 : Files d3 s [c0, e0] := by
    intro j
    match j with
    | 0 => exact hg0
    | 1 => exact hg1
    | j + 2 => exact hg2 j
  obtain ⟨e, hv0⟩ := step_voxcut s3
  have hd4 : ∀ t j, d4 (numbered t j) = d3 (numbered t j) := by
    intro t j
    have h0 : numbered t j ≠ [] := by unfold numbered; intro h; exact absurd (List.append_eq_nil_iff.mp h).2 (by decide)
    exact (voxcut_touches hv0).1 _ h0 h0 fun h => stl_ne_numbered (ascii "out" ++ nth 0) t j h.symm
  have hF4 : Files d4 s [c0, e0] := fun j => by rw [hd4]; exact hF3 j
  -- box 1
  cases hb1 with
  | @cons _ _ d5 _ _ hl hb1 =>
  rw [step_blank.mp hl] at hb1
  cases hb1 with
  | @cons _ _ d6 _ _ u1 hb1 =>
  cases hb1 with
  | @cons _ _ d7 _ _ u2 hb1 =>
  cases hb1 with
  | cons u3 hb1 =>
  cases hb1
  obtain ⟨v1, v2⟩ := step_binvox hF4 (u1 : BinvoxStep tool lib d4 [ascii "binvox", ascii "-pb", ascii "-d", ascii "1024", ascii "-bb", q1, q2, q3, q4, q5, q6, s ++ ascii ".stl"] d6)
  have hF6 : Files d6 (s ++ ascii "_1") [e0] := by
    intro j
    by_cases hj : j = 0
    · subst hj
      rw [← eb, v1 1]; rfl
    · rw [v2 _ fun i h => hj (hnum _ _ h).1, hd4]; exact b1 j
  rw [ea] at u2
  obtain ⟨w1, w2⟩ := step_binvox hF6 (u2 : BinvoxStep tool lib d6 [ascii "binvox", ascii "-pb", ascii "-d", ascii "1024", ascii "-bb", q1, q2, q3, q4, q5, q6, (s ++ ascii "_1") ++ ascii ".stl"] d7)
  obtain ⟨e', hv⟩ := step_voxcut u3
  refine ⟨d7, dm, e', ?_, ?_⟩
  · rw [List.map_cons, List.map_cons, List.map_nil, t1, t2] at hv
    have x1 : s ++ nth 1 ++ ascii ".binvox" = s ++ ascii "_1.binvox" := by rw [List.append_assoc]; rfl
    have x2 : s ++ ascii "_1" ++ nth 1 ++ ascii ".binvox" = s ++ ascii "_1_1.binvox" := by
      rw [List.append_assoc, List.append_assoc]; rfl
    rw [x1, x2] at hv
    exact hv
  · have x1 : s ++ ascii "_1.binvox" = numbered (s ++ ascii "_1") 0 := by
      show _ = s ++ ascii "_1" ++ [] ++ ascii ".binvox"
      rw [List.append_nil, List.append_assoc]; rfl
    rw [x1]
    exact w1 0

/-! ## Runs exist -/

theorem free_number {d : Disk} (h : FiniteDisk d) (s : Bytes) : ∃ k, d (numbered s k) = none ∧ ∀ j < k, d (numbered s j) ≠ none := by
  classical
  have hex : ∃ k, d (numbered s k) = none := by
    by_contra hno
    obtain ⟨l, hl⟩ := h
    have hsub : (List.range (l.length + 1)).map (numbered s) ⊆ l := by
      intro x hx
      obtain ⟨j, -, rfl⟩ := List.mem_map.mp hx
      exact hl _ fun h => hno ⟨j, h⟩
    have hnd : ((List.range (l.length + 1)).map (numbered s)).Nodup := List.nodup_range.map fun _ _ => numbered_inj
    have := (hnd.subperm hsub).length_le
    simp at this
  exact ⟨Nat.find hex, Nat.find_spec hex, fun j hj => Nat.find_min hex hj⟩

/-- **C82.** From every disk there is a run of the script in which every file can be written. -/
theorem binvox_run_exists [LawfulFloatText F] {quote : Bytes → Bytes} {fl : BinvoxDiceFlags} {mbb : Box F} {out : Bytes}
    (hne : fl.args ≠ []) (hp : ∀ a ∈ fl.args, Plain a) (hs : ∀ a ∈ fl.args, ∃ s, a = s ++ ascii ".stl")
    (hq : (10 : UInt8) ∉ quote fl.mbb) (ho : binvoxScript quote fl mbb = some out) {d : Disk} (hd : FiniteDisk d) :
    ∃ d', ScriptRun (GoodBox tool lib) d (shellWords out) d' := by
  have hw : ∀ d', ScriptRun (GoodBox tool lib) d (shellWords out) d' ↔ _ := fun d' => binvox_words goodBox_steps hne hp hq ho
  simp only [hw]
  have hline : ∀ (d : Disk), FiniteDisk d → ∀ n, ∀ ws ∈ boxLines (boxNumbers mbb (axisBoxes fl.factor fl.subX) (axisBoxes fl.factor fl.subY)
      (axisBoxes fl.factor fl.subZ) n) fl.args n, ∃ d', GoodBox tool lib d ws d' ∧ FiniteDisk d' := by
    intro d hd n ws hws
    unfold boxLines at hws
    rw [List.mem_append, List.mem_cons, List.mem_singleton, List.mem_map] at hws
    rcases hws with (rfl | ⟨a, ha, rfl⟩) | rfl
    · exact ⟨d, ⟨.blank, fun o files e => by injection e with e _; exact absurd e (by decide)⟩, hd⟩
    · obtain ⟨s, rfl⟩ := hs a ha
      obtain ⟨n1, n2, n3, n4, n5, n6, hn⟩ := boxNumbers_six mbb (axisBoxes fl.factor fl.subX) (axisBoxes fl.factor fl.subY) (axisBoxes fl.factor fl.subZ) n
      rw [hn]
      cases ht : (d (s ++ ascii ".stl")).bind (fun f => tool f [n1, n2, n3, n4, n5, n6]) with
      | none => exact ⟨d, ⟨.nothing ht, fun o files e => by injection e with e _; exact absurd e (by decide)⟩, hd⟩
      | some c =>
        obtain ⟨k, hk, hj⟩ := free_number hd s
        exact ⟨_, ⟨.binvox ht hk hj, fun o files e => by injection e with e _; exact absurd e (by decide)⟩, finiteDisk_put hd _ _⟩
    · cases hm : cutModel (F := F) d (stlFlags (boxStl n) (fl.args.map fun a => boxBin a n)) with
      | none =>
        refine ⟨d, ⟨.voxcut (.fatal hm), ?_⟩, hd⟩
        intro o files e hc
        injection e with _ e
        injection e with _ e
        injection e with e1 e2
        rw [← e1, ← e2] at hc
        exact absurd hm hc
      | some b =>
        have hrun : VoxcutRun (F := F) lib d (stlFlags (boxStl n) (fl.args.map fun a => boxBin a n)) _ .done :=
          .last (ok := true) (env := ⟨true, [], true⟩) (env2 := ⟨true, [], true⟩) hm rfl (List.Perm.refl _) rfl
            (.cubes (boxStl_ne_nil n) rfl ⟨_, _, List.Perm.refl _, List.Perm.refl _, rfl⟩ .ok)
        refine ⟨_, ⟨.voxcut hrun, ?_⟩, finiteDisk_put hd _ _⟩
        intro o files e hc
        injection e with _ e
        injection e with _ e
        injection e with e1 e2
        rw [← e1, ← e2]
        exact hrun
  have hall : ∀ (ls : List (List Bytes)), (∀ l ∈ ls, ∀ d : Disk, FiniteDisk d → ∃ d', GoodBox tool lib d l d' ∧ FiniteDisk d') →
      ∀ {d : Disk}, FiniteDisk d → ∃ d', ScriptRun (GoodBox tool lib) d ls d' := by
    intro ls
    induction ls with
    | nil => intro _ d _; exact ⟨d, .nil⟩
    | cons l ls ih =>
      intro hl d hd
      obtain ⟨d1, h1, f1⟩ := hl l (by simp) d hd
      obtain ⟨d2, h2⟩ := ih (fun l h => hl l (by simp [h])) f1
      exact ⟨d2, .cons h1 h2⟩
  refine hall _ ?_ hd
  intro l hl d hd
  unfold bodyLines at hl
  obtain ⟨n, -, hl⟩ := List.mem_flatMap.mp hl
  exact hline d hd n l hl

end

/-! ## A case that meets the hypotheses -/

/-- `binvox-dice -factor 2 -suby=false -mbb "(0,0,0)-(4,4,4)" a.stl b.stl`. -/
def exBinvoxFlags : BinvoxDiceFlags := ⟨2, ascii "(0,0,0)-(4,4,4)", true, false, false, [ascii "a.stl", ascii "b.stl"]⟩

example : binvoxDiceFlags [ascii "-factor", ascii "2", ascii "-suby=false", ascii "-mbb", ascii "(0,0,0)-(4,4,4)", ascii "a.stl", ascii "b.stl"] =
    some exBinvoxFlags := rfl

theorem exGoodNames : GoodNames exBinvoxFlags.args where
  nonempty := by decide
  nodup := by decide
  plain := by
    intro a ha
    simp only [exBinvoxFlags, List.mem_cons, List.not_mem_nil, or_false] at ha
    unfold Plain
    rcases ha with rfl | rfl <;> decide
  stl := by
    intro a ha
    simp only [exBinvoxFlags, List.mem_cons, List.not_mem_nil, or_false] at ha
    rcases ha with rfl | rfl
    · exact ⟨ascii "a", by decide⟩
    · exact ⟨ascii "b", by decide⟩
  apart := by
    intro a ha b _ k h
    have h1 : (95 : UInt8) ∉ trimStl a := by
      revert a; intro a ha _
      simp only [exBinvoxFlags, List.mem_cons, List.not_mem_nil, or_false] at ha
      rcases ha with rfl | rfl <;> decide
    rw [h] at h1
    exact h1 (List.mem_append_left _ (List.mem_append_right _ (by decide)))
  outs := by
    intro a ha n h
    have h1 : a.head? = some 111 := by rw [h]; rfl
    simp only [exBinvoxFlags, List.mem_cons, List.not_mem_nil, or_false] at ha
    rcases ha with rfl | rfl <;> revert h1 <;> decide

/-- Two boxes, both arguments there, nothing else: the script runs, and each box gets its own files, in order. -/
example (lib : GL ℚ) : ∃ (out : Bytes) (d d' : Disk), boxCount exBinvoxFlags = 2 ∧
    binvoxScript id exBinvoxFlags (⟨⟨0, 0, 0⟩, ⟨4, 4, 4⟩⟩ : Box ℚ) = some out ∧
    ScriptRun (GoodBox (fun c ns => some (c ++ joinSp ns)) lib) d (shellWords out) d' ∧
    d' (ascii "a.binvox") = some (ascii "A" ++ joinSp ([0, 0, 0, 2, 4, 4].map fun q : ℚ => FloatText.fmtG q)) ∧
    d' (ascii "a_1.binvox") = some (ascii "A" ++ joinSp ([2, 0, 0, 4, 4, 4].map fun q : ℚ => FloatText.fmtG q)) ∧
    d' (ascii "b_1.binvox") = some (ascii "B" ++ joinSp ([2, 0, 0, 4, 4, 4].map fun q : ℚ => FloatText.fmtG q)) := by
  have hout := binvox_script id exBinvoxFlags (⟨⟨0, 0, 0⟩, ⟨4, 4, 4⟩⟩ : Box ℚ) exGoodNames.nonempty
    fun a ha => plain_percent (exGoodNames.plain a ha)
  have hd : FiniteDisk (put (put (fun _ => none) (ascii "a.stl") (ascii "A")) (ascii "b.stl") (ascii "B")) :=
    finiteDisk_put (finiteDisk_put ⟨[], fun _ h => absurd rfl h⟩ _ _) _ _
  obtain ⟨d', hr⟩ := binvox_run_exists (tool := fun c ns => some (c ++ joinSp ns)) (lib := lib) exGoodNames.nonempty exGoodNames.plain
    exGoodNames.stl (by decide) hout hd
  have h := binvox_good_run (c := fun a n => (made (fun c ns => some (c ++ joinSp ns)) exBinvoxFlags (⟨⟨0, 0, 0⟩, ⟨4, 4, 4⟩⟩ : Box ℚ)
      (put (put (fun _ => none) (ascii "a.stl") (ascii "A")) (ascii "b.stl") (ascii "B")) a n).getD []) exGoodNames (by decide) hout (by
    intro a ha j
    rw [put_other, put_other]
    · exact fun h => stl_ne_numbered (ascii "a") _ j h.symm
    · exact fun h => stl_ne_numbered (ascii "b") _ j h.symm) (by
    intro a ha n _
    simp only [exBinvoxFlags, List.mem_cons, List.not_mem_nil, or_false] at ha
    rcases ha with rfl | rfl <;> rfl) hr
  refine ⟨_, _, d', by decide, hout, hr, ?_, ?_, ?_⟩
  · have := (h 0 (by decide)).1 (ascii "a.stl") (by decide)
    rw [show boxBin (ascii "a.stl") 0 = ascii "a.binvox" by decide] at this
    rw [this]
    decide +kernel
  · have := (h 1 (by decide)).1 (ascii "a.stl") (by decide)
    rw [show boxBin (ascii "a.stl") 1 = ascii "a_1.binvox" by decide] at this
    rw [this]
    decide +kernel
  · have := (h 1 (by decide)).1 (ascii "b.stl") (by decide)
    rw [show boxBin (ascii "b.stl") 1 = ascii "b_1.binvox" by decide] at this
    rw [this]
    decide +kernel

/-- A run that ends well is a run. -/
theorem goodBox_run {F : Type} [GoFloat F] [FloatText F] {tool : Bytes → List Bytes → Option Bytes} {lib : GL F} {d : Disk}
    {ls : List (List Bytes)} {d' : Disk} (h : ScriptRun (GoodBox tool lib) d ls d') : ScriptRun (BinvoxStep tool lib) d ls d' := by
  induction h with
  | nil => exact .nil
  | cons h _ ih => exact .cons h.1 ih

/-- `binvox_dice_iff`. -/
example (out : Bytes) (e : Exit) := binvox_dice_iff (F := ℚ) (quote := id) (args := [ascii "-factor", ascii "2", ascii "-suby=false", ascii "-mbb",
  ascii "(0,0,0)-(4,4,4)", ascii "a.stl", ascii "b.stl"]) (fl := exBinvoxFlags) rfl (fun a ha => plain_percent (exGoodNames.plain a ha)) (out := out) (e := e)

/-- The box of these flags. -/
def exMbb : Box ℚ := ⟨⟨0, 0, 0⟩, ⟨4, 4, 4⟩⟩

/-- A directory with `a.stl` and `b.stl`, and what was left there before. -/
def exBoxDisk (left : List (Bytes × Bytes)) : Disk :=
  left.foldl (fun d p => put d p.1 p.2) (put (put (fun _ => none) (ascii "a.stl") (ascii "A")) (ascii "b.stl") (ascii "B"))

theorem exBoxDisk_finite (left : List (Bytes × Bytes)) : FiniteDisk (exBoxDisk left) := by
  unfold exBoxDisk
  generalize h : put (put (fun _ => none) (ascii "a.stl") (ascii "A")) (ascii "b.stl") (ascii "B") = d
  have hd : FiniteDisk d := h ▸ finiteDisk_put (finiteDisk_put ⟨[], fun _ h => absurd rfl h⟩ _ _) _ _
  clear h
  induction left generalizing d with
  | nil => exact hd
  | cons p left ih => exact ih _ (finiteDisk_put hd _ _)

theorem exBoxDisk_bin (a : Bytes) (j : Nat) : exBoxDisk [] (boxBin a j) = none := by
  show put (put (fun _ => none) (ascii "a.stl") (ascii "A")) (ascii "b.stl") (ascii "B") _ = none
  rw [put_other, put_other]
  · exact fun h => stl_ne_numbered (ascii "a") _ j h.symm
  · exact fun h => stl_ne_numbered (ascii "b") _ j h.symm

/-- `binvox_runs` and `binvox_missing`, with a binvox program that cannot read `b.stl`: `out.stl` and `out_1.stl` are made without it. -/
example (lib : GL ℚ) : ∃ (out : Bytes) (d' : Disk), binvoxScript id exBinvoxFlags exMbb = some out ∧
    ScriptRun (BinvoxStep (fun c ns => if c = ascii "B" then none else some (c ++ joinSp ns)) lib) (exBoxDisk []) (shellWords out) d' ∧
    d' (ascii "b.binvox") = none ∧
    ∃ D D' e, VoxcutRun (F := ℚ) lib D (stlFlags (boxStl 1) [ascii "a_1.binvox", ascii "b_1.binvox"]) D' e ∧
      D (ascii "b_1.binvox") = none ∧ d' (boxStl 1) = D' (boxStl 1) := by
  have hout := binvox_script id exBinvoxFlags exMbb exGoodNames.nonempty fun a ha => plain_percent (exGoodNames.plain a ha)
  obtain ⟨d', hr⟩ := binvox_run_exists (tool := fun c ns => if c = ascii "B" then none else some (c ++ joinSp ns)) (lib := lib)
    exGoodNames.nonempty exGoodNames.plain exGoodNames.stl (by decide) hout (exBoxDisk_finite [])
  have hr' := goodBox_run hr
  have hleft : ∀ a ∈ exBinvoxFlags.args, ∀ j, exBoxDisk [] (boxBin a j) = ([] : List Bytes)[j]? := fun a _ j => by
    rw [exBoxDisk_bin]; rfl
  have h1 := binvox_runs exGoodNames (by decide) hout (left := fun _ => []) hleft hr'
  have h2 := binvox_missing exGoodNames (by decide) hout (left := fun _ => []) hleft hr' (a := ascii "b.stl") (by decide) rfl (m := 0)
    rfl 1 (by decide) (by decide)
  obtain ⟨D, D', e, g1, g2, g3, -⟩ := h2
  refine ⟨_, d', hout, hr', ?_, D, D', e, g1, g2, g3⟩
  have := h1.2.1 (ascii "b.stl") (by decide) 0
  rw [show boxBin (ascii "b.stl") 0 = ascii "b.binvox" by decide] at this
  rw [this]
  decide +kernel

/-- `binvox_left_over`: with `a.binvox` left from before, box 0 is cut from the old file and box 1 from the file of box 0. -/
example (lib : GL ℚ) : ∃ (out : Bytes) (d' : Disk), binvoxScript id exBinvoxFlags exMbb = some out ∧
    ScriptRun (BinvoxStep (fun c ns => some (c ++ joinSp ns)) lib) (exBoxDisk [(ascii "a.binvox", ascii "old")]) (shellWords out) d' ∧
    ∃ D D' e, VoxcutRun (F := ℚ) lib D (stlFlags (boxStl 0) [ascii "a.binvox", ascii "b.binvox"]) D' e ∧ D (ascii "a.binvox") = some (ascii "old") := by
  have hout := binvox_script id exBinvoxFlags exMbb exGoodNames.nonempty fun a ha => plain_percent (exGoodNames.plain a ha)
  obtain ⟨d', hr⟩ := binvox_run_exists (tool := fun c ns => some (c ++ joinSp ns)) (lib := lib)
    exGoodNames.nonempty exGoodNames.plain exGoodNames.stl (by decide) hout (exBoxDisk_finite [(ascii "a.binvox", ascii "old")])
  have hr' := goodBox_run hr
  have hleft : ∀ a ∈ exBinvoxFlags.args, ∀ j, exBoxDisk [(ascii "a.binvox", ascii "old")] (boxBin a j) =
      (if a = ascii "a.stl" then [ascii "old"] else [])[j]? := by
    intro a ha j
    show put (exBoxDisk []) (ascii "a.binvox") (ascii "old") (boxBin a j) = _
    simp only [exBinvoxFlags, List.mem_cons, List.not_mem_nil, or_false] at ha
    rcases ha with rfl | rfl
    · cases j with
      | zero => exact put_self _ _ _
      | succ j =>
        rw [put_other, exBoxDisk_bin]
        · rfl
        · intro h
          exact absurd (numbered_inj (s := ascii "a") (i := j + 1) (j := 0) h) (by omega)
    · rw [put_other, exBoxDisk_bin]
      · rfl
      · intro h
        have : (boxBin (ascii "b.stl") j).head? = some 98 := rfl
        rw [h] at this
        revert this
        decide
  obtain ⟨D, D', e, g1, g2, -⟩ := binvox_left_over exGoodNames (by decide) hout
    (left := fun a => if a = ascii "a.stl" then [ascii "old"] else []) hleft hr' (a := ascii "a.stl") (by decide) (old := ascii "old") rfl
    (c := fun n => (made (fun c ns => some (c ++ joinSp ns)) exBinvoxFlags exMbb (exBoxDisk [(ascii "a.binvox", ascii "old")]) (ascii "a.stl") n).getD [])
    (fun n _ => rfl) 0 (by decide)
  exact ⟨_, d', hout, hr', D, D', e, g1, g2⟩

/-- `binvox_collide`: `binvox-dice -factor 2 a.stl a_1.stl`. -/
example (lib : GL ℚ) : ∃ (out : Bytes) (d' : Disk),
    binvoxScript id ⟨2, ascii "(0,0,0)-(4,4,4)", true, false, false, [ascii "a.stl", ascii "a_1.stl"]⟩ exMbb = some out ∧
    ScriptRun (BinvoxStep (fun c ns => some (c ++ joinSp ns)) lib) (put (exBoxDisk []) (ascii "a_1.stl") (ascii "C")) (shellWords out) d' ∧
    ∃ D D' e, VoxcutRun (F := ℚ) lib D (stlFlags (ascii "out_1.stl") [ascii "a_1.binvox", ascii "a_1_1.binvox"]) D' e ∧
      D (ascii "a_1.binvox") = some (ascii "C" ++ joinSp ([0, 0, 0, 2, 4, 4].map fun q : ℚ => FloatText.fmtG q)) := by
  have hp : ∀ a ∈ ([ascii "a.stl", ascii "a_1.stl"] : List Bytes), Plain a := by
    intro a ha
    simp only [List.mem_cons, List.not_mem_nil, or_false] at ha
    unfold Plain
    rcases ha with rfl | rfl <;> decide
  have hs : ∀ a ∈ ([ascii "a.stl", ascii "a_1.stl"] : List Bytes), ∃ s, a = s ++ ascii ".stl" := by
    intro a ha
    simp only [List.mem_cons, List.not_mem_nil, or_false] at ha
    rcases ha with rfl | rfl
    · exact ⟨ascii "a", by decide⟩
    · exact ⟨ascii "a_1", by decide⟩
  have hout := binvox_script id ⟨2, ascii "(0,0,0)-(4,4,4)", true, false, false, [ascii "a.stl", ascii "a_1.stl"]⟩ exMbb (by decide)
    fun a ha => plain_percent (hp a ha)
  obtain ⟨d', hr⟩ := binvox_run_exists (tool := fun c ns => some (c ++ joinSp ns)) (lib := lib)
    (by decide) hp hs (by decide) hout (finiteDisk_put (exBoxDisk_finite []) (ascii "a_1.stl") (ascii "C"))
  have hr' := goodBox_run hr
  obtain ⟨D, D', e, g1, g2⟩ := binvox_collide (s := ascii "a") rfl hp (by decide) hout (by decide) (d := put (exBoxDisk []) (ascii "a_1.stl") (ascii "C"))
    (by
      intro a ha j
      rw [put_other, exBoxDisk_bin]
      exact fun h => stl_ne_numbered (ascii "a_1") _ j h.symm) rfl rfl hr'
  refine ⟨_, d', hout, hr', D, D', e, g1, ?_⟩
  refine Eq.trans (b := _) g2 ?_
  decide +kernel

end Cmd
end StlDice
