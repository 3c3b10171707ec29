import Verif.Model.CmdLines
import Verif.Props.FlagLine
import Verif.Props.CutDiceLoop
import Verif.Props.DiceRuns

/-! # C80: the commands' flags; stldice and its script from command lines -/

namespace StlDice
namespace Flag
open Spec

theorem get_iff {sets : List (Bytes × Bytes)} {n : Bytes} {r : Option Bytes} : get sets n = r ↔ LastSet sets n r := by
  have ex : ∀ sets : List (Bytes × Bytes), LastSet sets n (get sets n) := by
    intro sets
    induction sets using List.reverseRecOn with
    | nil => intro s hs; exact (List.not_mem_nil hs).elim
    | append_singleton l a ih =>
      have e : get (l ++ [a]) n = if a.1 = n then some a.2 else get l n := by
        unfold get
        rw [List.foldl_append, List.foldl_cons, List.foldl_nil]
      rw [e]
      by_cases ha : a.1 = n
      · rw [if_pos ha]
        refine ⟨l, [], ?_, fun s hs => (List.not_mem_nil hs).elim⟩
        rw [← ha]
      · rw [if_neg ha]
        cases hg : get l n with
        | none =>
          rw [hg] at ih
          intro s hs
          rcases List.mem_append.mp hs with h | h
          · exact ih s h
          · rw [List.mem_singleton.mp h]; exact ha
        | some v =>
          rw [hg] at ih
          obtain ⟨b, af, rfl, h⟩ := ih
          refine ⟨b, af ++ [a], by simp, ?_⟩
          intro s hs
          rcases List.mem_append.mp hs with h' | h'
          · exact h s h'
          · rw [List.mem_singleton.mp h']; exact ha
  constructor
  · rintro rfl
    exact ex sets
  · intro h
    cases r with
    | none => exact get_unset h
    | some v =>
      obtain ⟨b, a, rfl, h⟩ := h
      exact get_last h

variable {kind : Bytes → Option Kind} {float : Bytes → Bool} {sets : List (Bytes × Bytes)}

theorem lastSet_valid {n v : Bytes} {k : Kind} (hs : ∀ s ∈ sets, Setting kind float s) (hk : kind n = some k)
    (h : LastSet sets n (some v)) : valid float k v = true := by
  obtain ⟨b, a, rfl, -⟩ := h
  obtain ⟨-, k', h1, h2⟩ := hs (n, v) (by simp)
  dsimp only at h1 h2
  rw [hk] at h1
  injection h1 with h1
  rw [h1]
  exact valid_iff.mpr h2

theorem lastSet_unique {n : Bytes} {r r' : Option Bytes} (h : LastSet sets n r) (h' : LastSet sets n r') : r = r' :=
  (get_iff.mpr h).symm.trans (get_iff.mpr h')

theorem getInt_iff {n : String} (hs : ∀ s ∈ sets, Setting kind float s) (hk : kind (ascii n) = some .int) {dflt i : Int} :
    i = getInt sets (ascii n) dflt ↔ IntFlag sets n dflt i := by
  unfold getInt IntFlag
  cases hg : get sets (ascii n) with
  | none =>
    have hl := get_iff.mp hg
    constructor
    · rintro rfl; exact .inl ⟨hl, rfl⟩
    · rintro (⟨_, h⟩ | ⟨v, h, _⟩)
      · exact h
      · cases lastSet_unique hl h
  | some v =>
    have hl := get_iff.mp hg
    have hv : (parseInt0 v).isSome = true := lastSet_valid hs hk hl
    obtain ⟨j, hj⟩ := Option.isSome_iff_exists.mp hv
    have e : ((some v).bind parseInt0).getD dflt = j := by
      show (parseInt0 v).getD dflt = j
      rw [hj]; rfl
    rw [e]
    constructor
    · rintro rfl; exact .inr ⟨v, hl, (int_flag_iff _ _).mp hj⟩
    · rintro (⟨h, _⟩ | ⟨v', h, h'⟩)
      · cases lastSet_unique hl h
      · injection lastSet_unique hl h with e
        rw [← int_flag_iff, ← e, hj] at h'
        injection h' with h'
        exact h'.symm

theorem getBool_iff {n : String} (hs : ∀ s ∈ sets, Setting kind float s) (hk : kind (ascii n) = some .bool) {b : Bool} :
    b = getBool sets (ascii n) ↔ BoolFlag sets n b := by
  unfold getBool BoolFlag
  cases hg : get sets (ascii n) with
  | none =>
    have hl := get_iff.mp hg
    constructor
    · rintro rfl; exact .inl ⟨hl, rfl⟩
    · rintro (⟨_, h⟩ | ⟨v, h, _⟩)
      · exact h
      · cases lastSet_unique hl h
  | some v =>
    have hl := get_iff.mp hg
    have hv : (parseBool v).isSome = true := lastSet_valid hs hk hl
    obtain ⟨j, hj⟩ := Option.isSome_iff_exists.mp hv
    have e : ((some v).bind parseBool).getD false = j := by
      show (parseBool v).getD false = j
      rw [hj]; rfl
    rw [e]
    constructor
    · rintro rfl; exact .inr ⟨v, hl, parseBool_iff.mp hj⟩
    · rintro (⟨h, _⟩ | ⟨v', h, h'⟩)
      · cases lastSet_unique hl h
      · injection lastSet_unique hl h with e
        rw [← parseBool_iff, ← e, hj] at h'
        injection h' with h'
        exact h'.symm

theorem getStr_iff {n : String} {dflt s : Bytes} : s = (get sets (ascii n)).getD dflt ↔ StrFlag sets n dflt s := by
  unfold StrFlag
  cases hg : get sets (ascii n) with
  | none =>
    have hl := get_iff.mp hg
    constructor
    · rintro rfl; exact .inl ⟨hl, rfl⟩
    · rintro (⟨_, h⟩ | h)
      · exact h
      · cases lastSet_unique hl h
  | some v =>
    have hl := get_iff.mp hg
    constructor
    · rintro rfl; exact .inr hl
    · rintro (⟨h, _⟩ | h)
      · cases lastSet_unique hl h
      · injection lastSet_unique hl h with e
        exact e.symm

end Flag

namespace Cmd
open Spec BinVOX Flag
variable {F : Type} [GoFloat F] [FloatText F] {float : Bytes → Bool} {args : List Bytes}

/-- **C80.** The flags of stldice: `-dim` (8192), `-nx` (8), `-ny` (8), `-nz` (1), `-mbb` (none). -/
theorem stldice_flags_iff {fl : DiceFlags F} : stldiceFlags float args = some fl ↔
    ∃ sets, CommandLine stldiceKind float sets fl.args args ∧
      IntFlag sets "dim" 8192 fl.dim ∧ IntFlag sets "nx" 8 fl.nx ∧ IntFlag sets "ny" 8 fl.ny ∧ IntFlag sets "nz" 1 fl.nz ∧
      ∃ m, StrFlag sets "mbb" [] m ∧ fl.mbb = if m = [] then none else some (parseMBB m) := by
  unfold stldiceFlags
  cases hp : parse stldiceKind float args with
  | exit b =>
    constructor
    · intro h; cases h
    · rintro ⟨sets, h, -⟩
      rw [parse_iff.mpr h] at hp
      cases hp
  | ok sets rest =>
    dsimp only
    have hc := parse_iff.mp hp
    constructor
    · intro h
      injection h with h
      subst h
      exact ⟨sets, hc, (getInt_iff hc.1 (by decide)).mp rfl, (getInt_iff hc.1 (by decide)).mp rfl,
        (getInt_iff hc.1 (by decide)).mp rfl, (getInt_iff hc.1 (by decide)).mp rfl, _, getStr_iff.mp rfl, rfl⟩
    · rintro ⟨sets', h, h1, h2, h3, h4, m, h5, h6⟩
      rw [parse_iff.mpr h] at hp
      injection hp with e1 e2
      subst e1
      have e5 : m = getStr sets' (ascii "mbb") := getStr_iff.mpr h5
      rw [← (getInt_iff h.1 (by decide)).mpr h1, ← (getInt_iff h.1 (by decide)).mpr h2,
        ← (getInt_iff h.1 (by decide)).mpr h3, ← (getInt_iff h.1 (by decide)).mpr h4, ← e5, ← h6, ← e2]

/-- **C80.** The flags of voxcut: `-obinvox`, `-ostl`, `-ovox`, the box `-sx … -cz` (0), `-manifold`. -/
theorem voxcut_flags_iff {fl : CutFlags} : voxcutFlags float args = some fl ↔
    ∃ sets, CommandLine voxcutKind float sets fl.files args ∧
      StrFlag sets "obinvox" [] fl.obinvox ∧ StrFlag sets "ostl" [] fl.ostl ∧ StrFlag sets "ovox" [] fl.ovox ∧
      (IntFlag sets "sx" 0 fl.region.sx ∧ IntFlag sets "sy" 0 fl.region.sy ∧ IntFlag sets "sz" 0 fl.region.sz) ∧
      (IntFlag sets "cx" 0 fl.region.cx ∧ IntFlag sets "cy" 0 fl.region.cy ∧ IntFlag sets "cz" 0 fl.region.cz) ∧
      BoolFlag sets "manifold" fl.manifold := by
  unfold voxcutFlags
  cases hp : parse voxcutKind float args with
  | exit b =>
    constructor
    · intro h; cases h
    · rintro ⟨sets, h, -⟩
      rw [parse_iff.mpr h] at hp
      cases hp
  | ok sets rest =>
    dsimp only
    have hc := parse_iff.mp hp
    constructor
    · intro h
      injection h with h
      subst h
      exact ⟨sets, hc, getStr_iff.mp rfl, getStr_iff.mp rfl, getStr_iff.mp rfl,
        ⟨(getInt_iff hc.1 (by decide)).mp rfl, (getInt_iff hc.1 (by decide)).mp rfl, (getInt_iff hc.1 (by decide)).mp rfl⟩,
        ⟨(getInt_iff hc.1 (by decide)).mp rfl, (getInt_iff hc.1 (by decide)).mp rfl, (getInt_iff hc.1 (by decide)).mp rfl⟩,
        (getBool_iff hc.1 (by decide)).mp rfl⟩
    · rintro ⟨sets', h, h1, h2, h3, ⟨a1, a2, a3⟩, ⟨b1, b2, b3⟩, h4⟩
      rw [parse_iff.mpr h] at hp
      injection hp with e1 e2
      subst e1
      have e1 : fl.obinvox = getStr sets' (ascii "obinvox") := getStr_iff.mpr h1
      have e2' : fl.ostl = getStr sets' (ascii "ostl") := getStr_iff.mpr h2
      have e3 : fl.ovox = getStr sets' (ascii "ovox") := getStr_iff.mpr h3
      rw [← (getInt_iff h.1 (by decide)).mpr a1, ← (getInt_iff h.1 (by decide)).mpr a2,
        ← (getInt_iff h.1 (by decide)).mpr a3, ← (getInt_iff h.1 (by decide)).mpr b1, ← (getInt_iff h.1 (by decide)).mpr b2,
        ← (getInt_iff h.1 (by decide)).mpr b3, ← (getBool_iff h.1 (by decide)).mpr h4, ← e1, ← e2', ← e3, ← e2]

/-- **C80.** The flags of voxcut-dice: `-n`, `-size` (256), `-obinvox`, `-ostl`, `-ovox`. -/
theorem cut_dice_flags_iff {dry : Bool} {fl : CutDiceFlags} : cutDiceFlags args = some (dry, fl) ↔
    ∃ sets, CommandLine cutDiceKind (fun _ => false) sets fl.files args ∧
      BoolFlag sets "n" dry ∧ IntFlag sets "size" 256 fl.size ∧
      StrFlag sets "obinvox" [] fl.binvoxPrefix ∧ StrFlag sets "ostl" [] fl.stlPrefix ∧ StrFlag sets "ovox" [] fl.voxPrefix := by
  unfold cutDiceFlags
  cases hp : parse cutDiceKind (fun _ => false) args with
  | exit b =>
    constructor
    · intro h; cases h
    · rintro ⟨sets, h, -⟩
      rw [parse_iff.mpr h] at hp
      cases hp
  | ok sets rest =>
    dsimp only
    have hc := parse_iff.mp hp
    constructor
    · intro h
      injection h with h
      injection h with h1 h
      subst h h1
      exact ⟨sets, hc, (getBool_iff hc.1 (by decide)).mp rfl, (getInt_iff hc.1 (by decide)).mp rfl,
        getStr_iff.mp rfl, getStr_iff.mp rfl, getStr_iff.mp rfl⟩
    · rintro ⟨sets', h, h0, h4, h1, h2, h3⟩
      rw [parse_iff.mpr h] at hp
      injection hp with e1 e2
      subst e1
      have e1 : fl.binvoxPrefix = getStr sets' (ascii "obinvox") := getStr_iff.mpr h1
      have e2' : fl.stlPrefix = getStr sets' (ascii "ostl") := getStr_iff.mpr h2
      have e3 : fl.voxPrefix = getStr sets' (ascii "ovox") := getStr_iff.mpr h3
      rw [← (getInt_iff h.1 (by decide)).mpr h4, ← (getBool_iff h.1 (by decide)).mpr h0, ← e1, ← e2', ← e3, ← e2]

/-- **C80.** The flags of merge-stl: `-f`, `-num` (10), `-prefix` ("out"); files are ignored. -/
theorem merge_stl_flags_iff {force : Bool} {num : Int} {p : Bytes} : mergeStlFlags args = some (force, num, p) ↔
    ∃ sets files, CommandLine mergeStlKind (fun _ => false) sets files args ∧
      BoolFlag sets "f" force ∧ IntFlag sets "num" 10 num ∧ StrFlag sets "prefix" (ascii "out") p := by
  unfold mergeStlFlags
  cases hp : parse mergeStlKind (fun _ => false) args with
  | exit b =>
    constructor
    · intro h; cases h
    · rintro ⟨sets, files, h, -⟩
      rw [parse_iff.mpr h] at hp
      cases hp
  | ok sets rest =>
    dsimp only
    have hc := parse_iff.mp hp
    constructor
    · intro h
      injection h with h
      injection h with h1 h
      injection h with h2 h3
      subst h1 h2 h3
      exact ⟨sets, rest, hc, (getBool_iff hc.1 (by decide)).mp rfl, (getInt_iff hc.1 (by decide)).mp rfl, getStr_iff.mp rfl⟩
    · rintro ⟨sets', files, h, h0, h4, h1⟩
      rw [parse_iff.mpr h] at hp
      injection hp with e1 e2
      subst e1
      rw [← (getInt_iff h.1 (by decide)).mpr h4, ← (getBool_iff h.1 (by decide)).mpr h0, ← getStr_iff.mpr h1]

/-- **C80.** The flags of merge-binvox: `-f`, `-prefix` ("out"); files are ignored. -/
theorem merge_binvox_flags_iff {force : Bool} {p : Bytes} : mergeBinvoxFlags args = some (force, p) ↔
    ∃ sets files, CommandLine mergeBinvoxKind (fun _ => false) sets files args ∧
      BoolFlag sets "f" force ∧ StrFlag sets "prefix" (ascii "out") p := by
  unfold mergeBinvoxFlags
  cases hp : parse mergeBinvoxKind (fun _ => false) args with
  | exit b =>
    constructor
    · intro h; cases h
    · rintro ⟨sets, files, h, -⟩
      rw [parse_iff.mpr h] at hp
      cases hp
  | ok sets rest =>
    dsimp only
    have hc := parse_iff.mp hp
    constructor
    · intro h
      injection h with h
      injection h with h1 h3
      subst h1 h3
      exact ⟨sets, rest, hc, (getBool_iff hc.1 (by decide)).mp rfl, getStr_iff.mp rfl⟩
    · rintro ⟨sets', files, h, h0, h1⟩
      rw [parse_iff.mpr h] at hp
      injection hp with e1 e2
      subst e1
      rw [← (getBool_iff h.1 (by decide)).mpr h0, ← getStr_iff.mpr h1]

/-- Whatever follows the first file is a file, also if it looks like an option: `stldice a.stl -dim 100` dices
    the files `a.stl`, `-dim` and `100`. -/
theorem options_after_file {f : Bytes} (hf : FirstFile f) (more : List Bytes) :
    stldiceFlags (F := F) float (f :: more) = some ⟨none, 8192, 8, 8, 1, f :: more⟩ := by
  refine stldice_flags_iff.mpr ⟨[], commandLine_nil.mpr (.inl ⟨rfl, ?_⟩), .inl ⟨?_, rfl⟩, .inl ⟨?_, rfl⟩, .inl ⟨?_, rfl⟩, .inl ⟨?_, rfl⟩,
    [], .inl ⟨?_, rfl⟩, rfl⟩
  · intro g hg
    injection hg with hg
    rw [← hg]; exact hf
  all_goals exact fun _ h => (List.not_mem_nil h).elim

/-! ## The lines of scripts -/

theorem voxcut_stl_line {o : Bytes} {files : List Bytes} (hf : ∀ f, files.head? = some f → NotFlag f) :
    voxcutFlags float (ascii "-ostl" :: o :: files) = some (stlFlags o files) := by
  have e : ascii "-ostl" = 45 :: ascii "ostl" := by decide
  have hp : parse voxcutKind float (ascii "-ostl" :: o :: files) = .ok [(ascii "ostl", o)] files := by
    rw [e, parse_value (k := .str) (by decide) (by decide) (by decide) rfl, parse_args hf]
    rfl
  unfold voxcutFlags
  rw [hp]
  rfl

theorem merge_line (p : Bytes) : mergeStlFlags [ascii "-f", ascii "-prefix", p] = some (true, 10, p) := by
  have pn : FlagName (ascii "prefix") := by unfold FlagName; decide
  have pk : mergeStlKind (ascii "prefix") = some .str := by decide
  have p1 : ascii "prefix" ≠ ascii "f" := by decide
  have p2 : ascii "prefix" ≠ ascii "num" := by decide
  refine merge_stl_flags_iff.mpr ⟨[(ascii "f", ascii "true"), (ascii "prefix", p)], [], ?_, ?_, ?_, ?_⟩
  · refine commandLine_cons.mpr ⟨⟨by unfold FlagName; decide, .bool, by decide, ⟨true, parseBool_iff.mp (by decide)⟩⟩, [ascii "-f"], _, ?_, rfl,
      commandLine_cons.mpr ⟨⟨pn, .str, pk, trivial⟩, [ascii "-prefix", p], [], ?_, rfl,
        commandLine_nil.mpr (.inl ⟨rfl, fun f h => by cases h⟩)⟩⟩
    · have : Written mergeStlKind (ascii "f", ascii "true") [ascii "-" ++ ascii "f"] := .bare (.inl rfl) (by decide)
      exact this
    · have : Written mergeStlKind (ascii "prefix", p) [ascii "-" ++ ascii "prefix", p] := .next (.inl rfl) (by decide)
      exact this
  · refine .inr ⟨_, ⟨[], [(ascii "prefix", p)], rfl, ?_⟩, parseBool_iff.mp (by decide)⟩
    intro s hs
    rw [List.mem_singleton.mp hs]
    exact p1
  · refine .inl ⟨?_, rfl⟩
    intro s hs
    rcases List.mem_cons.mp hs with rfl | hs
    · decide
    · rw [List.mem_singleton.mp hs]; exact p2
  · exact .inr ⟨[(ascii "f", ascii "true")], [], rfl, fun s hs => (List.not_mem_nil hs).elim⟩

section
variable {lib : GL F} {load : Bytes → Option (List (Tri (Vec F)))} {d d' : Disk}

theorem proc_comment {w : Bytes} {ws : List Bytes} (h : w.head? = some 35) :
    GoodProc float lib load d (w :: ws) d' ↔ GoodLine lib load 10 d (w :: ws) d' := by
  have n1 : w ≠ ascii "voxcut" := by rintro rfl; revert h; decide
  have n2 : w ≠ ascii "merge-stl" := by rintro rfl; revert h; decide
  constructor
  · rintro ⟨e, hl, -⟩
    generalize hw : w :: ws = l at hl
    cases hl with
    | comment _ => exact ⟨.done, by rw [← hw]; exact .comment h, fun h => nomatch h⟩
    | voxcut _ => injection hw with hw _; exact absurd hw n1
    | merge _ => injection hw with hw _; exact absurd hw n2
  · rintro ⟨e, hl, -⟩
    generalize hw : w :: ws = l at hl
    cases hl with
    | comment _ => exact ⟨.done, by rw [← hw]; exact .comment h, fun h => nomatch h⟩
    | voxcut _ => injection hw with hw _; exact absurd hw n1
    | merge _ _ => injection hw with hw _; exact absurd hw n2

theorem proc_voxcut {o : Bytes} {files : List Bytes} (hf : ∀ f, files.head? = some f → NotFlag f) :
    GoodProc float lib load d (ascii "voxcut" :: ascii "-ostl" :: o :: files) d' ↔
      GoodLine lib load 10 d (ascii "voxcut" :: ascii "-ostl" :: o :: files) d' := by
  have hp := voxcut_stl_line (float := float) (o := o) hf
  constructor
  · rintro ⟨e, hl, he⟩
    have he : e = .fatal → cutModel (F := F) d (stlFlags o files) = none := by
      intro h
      obtain ⟨args, fl, h1, h2, h3⟩ := he h
      injection h1 with _ h1
      rw [← h1, hp] at h2
      injection h2 with h2
      rw [h2]
      exact h3
    generalize hw : ascii "voxcut" :: ascii "-ostl" :: o :: files = l at hl
    cases hl with
    | comment h =>
      injection hw with hw _
      rw [← hw] at h
      exact absurd h (by decide)
    | voxcut h =>
      injection hw with _ hw
      rw [← hw] at h ⊢
      cases h with
      | usage h => rw [voxcutFlags_exit h] at hp; cases hp
      | run h hr =>
        rw [hp] at h
        injection h with h
        rw [← h] at hr
        exact ⟨e, .voxcut hr, fun h => ⟨o, files, rfl, he h⟩⟩
    | merge h =>
      injection hw with hw _
      exact absurd hw (by decide)
  · rintro ⟨e, hl, he⟩
    have he : e = .fatal → cutModel (F := F) d (stlFlags o files) = none := by
      intro h
      obtain ⟨o', files', h1, h2⟩ := he h
      injection h1 with _ h1
      injection h1 with _ h1
      injection h1 with h1 h3
      rw [h1, h3]
      exact h2
    generalize hw : ascii "voxcut" :: ascii "-ostl" :: o :: files = l at hl
    cases hl with
    | comment h =>
      injection hw with hw _
      rw [← hw] at h
      exact absurd h (by decide)
    | voxcut h =>
      injection hw with _ hw
      injection hw with _ hw
      injection hw with h1 h2
      subst h1 h2
      exact ⟨e, .voxcut (.run hp h), fun h => ⟨_, _, rfl, hp, he h⟩⟩
    | merge h =>
      injection hw with hw _
      exact absurd hw (by decide)

theorem proc_merge {p : Bytes} :
    GoodProc float lib load d [ascii "merge-stl", ascii "-f", ascii "-prefix", p] d' ↔
      GoodLine lib load 10 d [ascii "merge-stl", ascii "-f", ascii "-prefix", p] d' := by
  have hp := merge_line p
  constructor
  · rintro ⟨e, hl, he⟩
    have he : e ≠ .fatal := by
      intro h
      obtain ⟨args, fl, h1, -⟩ := he h
      injection h1 with h1 _
      exact absurd h1 (by decide)
    generalize hw : [ascii "merge-stl", ascii "-f", ascii "-prefix", p] = l at hl
    cases hl with
    | comment h =>
      injection hw with hw _
      rw [← hw] at h
      exact absurd h (by decide)
    | voxcut h =>
      injection hw with hw _
      exact absurd hw (by decide)
    | merge h =>
      injection hw with _ hw
      rw [← hw] at h ⊢
      cases h with
      | usage h =>
        unfold mergeStlFlags at hp
        rw [h] at hp
        cases hp
      | run h hn hg hr =>
        rw [hp] at h
        injection h with h
        injection h with h1 h
        injection h with h2 h3
        subst h1 h2 h3
        exact ⟨e, .merge hg hr, fun h => absurd h he⟩
      | negative h hn hg =>
        rw [hp] at h
        injection h with h
        injection h with h1 h
        injection h with h2 h3
        subst h2
        exact absurd hn (by decide)
  · rintro ⟨e, hl, he⟩
    have he : e ≠ .fatal := by
      intro h
      obtain ⟨o', files', h1, h2⟩ := he h
      injection h1 with h1 _
      exact absurd h1 (by decide)
    generalize hw : [ascii "merge-stl", ascii "-f", ascii "-prefix", p] = l at hl
    cases hl with
    | comment h =>
      injection hw with hw _
      rw [← hw] at h
      exact absurd h (by decide)
    | voxcut h =>
      injection hw with hw _
      exact absurd hw (by decide)
    | merge hg h =>
      injection hw with _ hw
      injection hw with _ hw
      injection hw with _ hw
      injection hw with hw _
      subst hw
      exact ⟨e, .merge (.run hp (by decide) hg h), fun h => absurd h he⟩

theorem scriptRun_congr {step step' : Disk → List Bytes → Disk → Prop} {ls : List (List Bytes)}
    (h : ∀ l ∈ ls, ∀ d d', step d l d' → step' d l d') {d d' : Disk} (hr : ScriptRun step d ls d') : ScriptRun step' d ls d' := by
  induction hr with
  | nil => exact .nil
  | cons h1 _ ih => exact .cons (h _ (by simp) _ _ h1) (ih fun l hl => h l (by simp [hl]))
end

/-- The name of a tile of a file with a plain name is not taken for a flag. -/
theorem tileBin_notFlag (fl : DiceFlags ℚ) {a : Bytes} (h : Plain a) (t : Key) : NotFlag (tileBin fl a t) := by
  obtain ⟨-, h1, h2, h3⟩ := h
  have h1 : (trimStl a).head? ≠ some 45 ∧ trimStl a ≠ [] := by
    by_cases hb : ∃ b, a = b ++ ascii ".stl"
    · obtain ⟨b, rfl⟩ := hb
      rw [(trimStl_spec b).1]
      have hb : b ≠ [] := by
        rintro rfl
        exact h3 rfl
      cases b with
      | nil => exact absurd rfl hb
      | cons c b => exact ⟨h1, hb⟩
    · rw [(trimStl_spec a).2 hb]
      exact ⟨h1, h2⟩
  left
  unfold tileBin tileName jobName dashed
  cases ha : trimStl a with
  | nil => exact absurd ha h1.2
  | cons c b =>
    rw [ha] at h1
    simpa [List.intersperse] using h1.1

/-- **C80.** The script of a job, run as command lines, does what the flags mean: nothing else can happen,
    and all of it can. -/
theorem script_procs_iff [FloatText ℚ] {load : Bytes → Option (Mesh ℚ)} {bbox : Mesh ℚ → Box ℚ}
    {env : Bytes → Key → FileEnv} {fl : DiceFlags ℚ} {fs fs' : FS} {out base : Bytes} {cuts : List Bytes}
    {mesh : Bytes → Mesh ℚ} {L : Layout ℚ} {whole : Bytes → BinVOX ℚ} (job : GoodJob load bbox fl fs base cuts mesh L whole)
    (h : DiceCmd load bbox env fl fs out fs' .done)
    {lib : GL ℚ} {loadTris : Bytes → Option (List (Tri (Vec ℚ)))} {d d' : Disk} :
    ScriptRun (GoodProc float lib loadTris) d (shellWords out) d' ↔ ScriptRun (GoodLine lib loadTris 10) d (shellWords out) d' := by
  have pos : 0 ≤ fl.dim ∧ 0 ≤ fl.nx ∧ 0 ≤ fl.ny ∧ 0 ≤ fl.nz := by
    have := job.dim
    have := job.divs
    omega
  obtain ⟨tiles, htm, -, rfl⟩ := (dice_script h).2 rfl
  have ht : ∀ t ∈ tiles, 0 ≤ t.X ∧ 0 ≤ t.Y ∧ 0 ≤ t.Z := by
    intro t ht
    have := ((htm t).mp ht).1
    unfold InDims at this
    omega
  have key : ∀ l ∈ shellWords (scriptText (outName fl) (fl.args.map fun a => jobName (trimStl a) fl.dim fl.nx fl.ny fl.nz) tiles),
      ∀ d d', GoodProc float lib loadTris d l d' ↔ GoodLine lib loadTris 10 d l d' := by
    intro l hl d d'
    rw [script_lines job.plain pos ht] at hl
    rcases List.mem_append.mp hl with hl | hl
    · rcases List.mem_append.mp hl with hl | hl
      · rw [List.mem_singleton.mp hl]
        exact proc_comment (by decide)
      · obtain ⟨t, -, rfl⟩ := List.mem_map.mp hl
        refine proc_voxcut ?_
        intro f hf
        rw [job.args] at hf
        injection hf with hf
        rw [← hf]
        exact tileBin_notFlag fl (job.plain base (by rw [job.args]; simp)) t
    · split at hl
      · rw [List.mem_singleton.mp hl]
        exact proc_merge
      · exact (List.not_mem_nil hl).elim
  exact ⟨scriptRun_congr fun l hl d d' => (key l hl d d').mp, scriptRun_congr fun l hl d d' => (key l hl d d').mpr⟩

/-- stldice with a command line it understands. -/
theorem stldice_proc_iff {float : Bytes → Bool} {load : Bytes → Option (Mesh F)} {bbox : Mesh F → Box F}
    {env : Bytes → Key → FileEnv} {args : List Bytes} {fl : DiceFlags F} (ha : stldiceFlags float args = some fl)
    {fs fs' : FS} {out : Bytes} {e : Exit} :
    StldiceProc float load bbox env args fs out fs' e ↔ DiceCmd load bbox env fl fs out fs' e := by
  constructor
  · intro h
    cases h with
    | usage h =>
      unfold stldiceFlags at ha
      rw [h] at ha
      cases ha
    | run h hr =>
      rw [ha] at h
      injection h with h
      rw [h]
      exact hr
  · intro h
    exact .run ha h

/-- **C80.** `stldice args | bash`, both as command lines: what C78 says of the flags `fl` holds of it. -/
theorem stldice_then_bash [FloatText ℚ] {load : Bytes → Option (Mesh ℚ)} {bbox : Mesh ℚ → Box ℚ}
    {env : Bytes → Key → FileEnv} {args : List Bytes} {fl : DiceFlags ℚ} (ha : stldiceFlags float args = some fl)
    {fs fs' : FS} {out base : Bytes} {cuts : List Bytes}
    {mesh : Bytes → Mesh ℚ} {L : Layout ℚ} {whole : Bytes → BinVOX ℚ} (job : GoodJob load bbox fl fs base cuts mesh L whole)
    {lib : GL ℚ} {loadTris : Bytes → Option (List (Tri (Vec ℚ)))} {d' : Disk} :
    (StldiceProc float load bbox env args fs out fs' .done ∧ ScriptRun (GoodProc float lib loadTris) fs'.get (shellWords out) d') ↔
      (DiceCmd load bbox env fl fs out fs' .done ∧ ScriptRun (GoodLine lib loadTris 10) fs'.get (shellWords out) d') := by
  rw [stldice_proc_iff ha]
  exact and_congr_right fun h => script_procs_iff job h

/-- The table of the flags of voxcut has no name that begins with a digit. -/
theorem voxcutKind_digit {c : UInt8} (hc : isDigit c = true) (s : Bytes) : voxcutKind (c :: s) = none := by
  unfold voxcutKind table
  rw [Option.map_eq_none_iff, List.find?_eq_none]
  intro p hp
  have hh : ∃ b r, ascii p.1 = b :: r ∧ isDigit b = false := by
    revert p
    simp only [List.mem_cons, List.not_mem_nil, or_false, forall_eq_or_imp, forall_eq]
    refine ⟨?_, ?_, ?_, ?_, ?_, ?_, ?_, ?_, ?_, ?_, ?_⟩ <;> exact ⟨_, _, rfl, by decide⟩
  obtain ⟨b, r, e, hb⟩ := hh
  intro h
  have h := of_decide_eq_true h
  rw [e] at h
  injection h with h _
  rw [h, hc] at hb
  cases hb

/-- **C80 (violated by the code).** If the base is the file `.stl`, the names of its tiles begin with a dash,
    voxcut takes them for flags, and every voxcut line of the script fails. -/
theorem dot_stl_base [FloatText ℚ] {fl : DiceFlags ℚ} {cuts : List Bytes} (h : fl.args = ascii ".stl" :: cuts) (h0 : 0 ≤ fl.dim)
    (t : Key) {lib : GL ℚ} {loadTris : Bytes → Option (List (Tri (Vec ℚ)))} {d d' : Disk} {e : Exit}
    (hr : LineProc float lib loadTris d (cutLine fl t) d' e) : d' = d ∧ e = .fatal := by
  have hb : ∃ c r, isDigit c = true ∧ tileBin fl (ascii ".stl") t = 45 :: c :: r := by
    have e1 : trimStl (ascii ".stl") = [] := by decide
    have hne : fmtInt fl.dim ≠ [] := by
      rw [fmtInt_nonneg h0]
      exact fmtNat_ne_nil _
    cases hf : fmtInt fl.dim with
    | nil => exact absurd hf hne
    | cons c s =>
      have hc : isDigit c = true := by
        rw [fmtInt_nonneg h0] at hf
        exact fmtNat_digits _ c (by rw [hf]; simp)
      unfold tileBin tileName jobName dashed
      rw [e1, hf]
      exact ⟨c, _, hc, rfl⟩
  obtain ⟨c, r, hc, hb⟩ := hb
  have n1 : c ≠ 45 := by rintro rfl; revert hc; decide
  have n2 : c ≠ 61 := by rintro rfl; revert hc; decide
  have e0 : cutLine fl t = ascii "voxcut" :: (ascii "-ostl" :: tileStl fl t :: tileBin fl (ascii ".stl") t :: cuts.map fun a => tileBin fl a t) := by
    unfold cutLine
    rw [h]
    rfl
  have e : ascii "-ostl" = 45 :: ascii "ostl" := by decide
  have hp : parse voxcutKind float (ascii "-ostl" :: tileStl fl t :: tileBin fl (ascii ".stl") t :: cuts.map fun a => tileBin fl a t) = .exit false := by
    have hw : word (tileBin fl (ascii ".stl") t) = .flag (c :: (splitEq r).1) (splitEq r).2 := by
      rw [hb, word.eq_def]
      dsimp only
      rw [if_neg (by simp), if_neg n1, nameWord, if_neg (by simp [n1, n2])]
    have hq : parse voxcutKind float (tileBin fl (ascii ".stl") t :: cuts.map fun a => tileBin fl a t) = .exit false := by
      rw [parse.eq_def]
      dsimp only
      rw [hw]
      dsimp only
      rw [voxcutKind_digit hc]
      dsimp only
      congr 1
      rw [decide_eq_false_iff_not]
      rintro (h | h) <;> (injection h with h _; rw [h] at hc; revert hc; decide)
    rw [e, parse_value (k := .str) (by decide) (by decide) (by decide) rfl, hq]
    rfl
  rw [e0] at hr
  generalize hw : ascii "voxcut" :: (ascii "-ostl" :: tileStl fl t :: tileBin fl (ascii ".stl") t :: cuts.map fun a => tileBin fl a t) = l at hr
  cases hr with
  | comment h =>
    injection hw with hw _
    rw [← hw] at h
    exact absurd h (by decide)
  | voxcut h =>
    injection hw with _ hw
    rw [← hw] at h
    cases h with
    | usage h =>
      rw [hp] at h
      injection h with h
      rw [← h]
      exact ⟨rfl, rfl⟩
    | run h _ =>
      rw [voxcutFlags_exit hp] at h
      cases h
  | merge h =>
    injection hw with hw _
    exact absurd hw (by decide)

/-- The hypothesis of `stldice_then_bash` about the command line is met for the flags of the example of C78:
    some numbers given in other ways, one flag given twice (numbers of the box as the instance for ℚ
    prints them). -/
theorem exArgs_flags : stldiceFlags (F := ℚ) float
    [ascii "-dim", ascii "4", ascii "--nx=2", ascii "-ny=8", ascii "-mbb", ascii "(0/1,0/1,0/1)-(4/1,4/1,4/1)", ascii "-ny", ascii "0x1",
      ascii "a.stl", ascii "b.stl"] = some exFlags := by
  have hm : parseMBB (F := ℚ) (ascii "(0/1,0/1,0/1)-(4/1,4/1,4/1)") = some ⟨⟨0, 0, 0⟩, ⟨4, 4, 4⟩⟩ := by decide +kernel
  have : stldiceFlags (F := ℚ) float
    [ascii "-dim", ascii "4", ascii "--nx=2", ascii "-ny=8", ascii "-mbb", ascii "(0/1,0/1,0/1)-(4/1,4/1,4/1)", ascii "-ny", ascii "0x1",
      ascii "a.stl", ascii "b.stl"] = some ⟨some (parseMBB (F := ℚ) (ascii "(0/1,0/1,0/1)-(4/1,4/1,4/1)")), 4, 2, 1, 1,
        [ascii "a.stl", ascii "b.stl"]⟩ := by rfl
  rw [this, hm]
  rfl

/-! ## More examples -/

example := options_after_file (F := ℚ) (float := fun _ => true) (f := ascii "a.stl") (Or.inl (by decide)) [ascii "-nx", ascii "2"]

/-- `script_procs_iff` and `stldice_then_bash` on the job of Props/DiceRuns: stldice and the script it prints, both run as
    commands, succeed. -/
example (float : Bytes → Bool) (bits : ℚ → Nat) (f32 : Nat → ℚ) (parseF : Bytes → ℚ) : ∃ (load : Bytes → Option (Mesh ℚ)) (mesh : Bytes → Mesh ℚ)
    (whole : Bytes → BinVOX ℚ) (lib : GL ℚ) (loadTris : Bytes → Option (List (Tri (Vec ℚ)))) (out : Bytes) (fs' : FS) (d' : Disk) (args : List Bytes),
    stldiceFlags float args = some exFlags ∧
    GoodJob load (fun _ => ⟨⟨0, 0, 0⟩, ⟨0, 0, 0⟩⟩) exFlags exDir (ascii "a.stl") [ascii "b.stl"] mesh exLayout whole ∧
    StldiceProc float load (fun _ => ⟨⟨0, 0, 0⟩, ⟨0, 0, 0⟩⟩) (fun _ _ => ⟨true, [], true⟩) args exDir out fs' .done ∧
    ScriptRun (GoodProc float lib loadTris) fs'.get (shellWords out) d' := by
  have hargs : stldiceFlags (F := ℚ) float
    [ascii "-dim", ascii "4", ascii "--nx=2", ascii "-ny=8", ascii "-mbb", ascii "(0/1,0/1,0/1)-(4/1,4/1,4/1)", ascii "-ny", ascii "0x1",
      ascii "a.stl", ascii "b.stl"] = some exFlags := exArgs_flags
  obtain ⟨load, mesh, whole, out, fs', loadTris, lib, job, h, d', hs⟩ : ∃ load mesh whole out fs' loadTris lib, ∃ job :
      GoodJob load (fun _ => ⟨⟨0, 0, 0⟩, ⟨0, 0, 0⟩⟩) exFlags exDir (ascii "a.stl") [ascii "b.stl"] mesh exLayout whole,
      DiceCmd load (fun _ => ⟨⟨0, 0, 0⟩, ⟨0, 0, 0⟩⟩) (fun _ _ => ⟨true, [], true⟩) exFlags exDir out fs' .done ∧
      ∃ d', ScriptRun (GoodLine lib loadTris 10) fs'.get (shellWords out) d' := by
    obtain ⟨load, mesh, whole, out, fs', d', loadTris, lib, -, -, job, h, -, -, hs, -⟩ :=
      exJob_runs wallMesh ⟨fun _ => wallMesh.heap 0, []⟩ bits f32 parseF 10
    exact ⟨load, mesh, whole, out, fs', loadTris, lib, job, h, d', hs⟩
  obtain ⟨h1, h2⟩ := (stldice_then_bash hargs job).mpr ⟨h, hs⟩
  exact ⟨load, mesh, whole, lib, loadTris, out, fs', d', _, hargs, job, h1, (script_procs_iff job h).mpr hs⟩

/-- `dot_stl_base`: a run of a line of this script. -/
example (float : Bytes → Bool) (lib : GL ℚ) (loadTris : Bytes → Option (List (Tri (Vec ℚ)))) (d : Disk) :
    ∃ (fl : DiceFlags ℚ) (d' : Disk) (e : Exit), fl.args = [ascii ".stl"] ∧ LineProc float lib loadTris d (cutLine fl ⟨0, 0, 0⟩) d' e ∧ d' = d ∧ e = .fatal := by
  have hp : parse voxcutKind float (cutLine (⟨none, 4, 2, 1, 1, [ascii ".stl"]⟩ : DiceFlags ℚ) ⟨0, 0, 0⟩).tail = .exit false := by
    rfl
  have hr : LineProc (F := ℚ) float lib loadTris d (cutLine (⟨none, 4, 2, 1, 1, [ascii ".stl"]⟩ : DiceFlags ℚ) ⟨0, 0, 0⟩) d .fatal :=
    .voxcut (.usage hp)
  exact ⟨_, d, .fatal, rfl, hr, dot_stl_base (cuts := []) rfl (by decide) ⟨0, 0, 0⟩ hr⟩

end Cmd
end StlDice
