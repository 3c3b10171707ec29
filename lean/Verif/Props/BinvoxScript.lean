import Verif.Spec.BinvoxDice
import Verif.Props.DiceScript

/-! # C82: the script of binvox-dice -/

namespace StlDice
namespace Cmd
open Spec BinVOX GoFloat

/-! ## The text -/

theorem printf1_plain (c : Bytes) {s : Bytes} (hs : (37 : UInt8) ∉ s) (r : Bytes) :
    printf1 c (s ++ r) = (printf1 c r).map (s ++ ·) := by
  induction s with
  | nil =>
    rw [List.nil_append]
    cases printf1 c r <;> rfl
  | cons x s ih =>
    rw [List.mem_cons, not_or] at hs
    have hx : x ≠ 37 := fun h => hs.1 h.symm
    have : printf1 c (x :: (s ++ r)) = (printf1 c (s ++ r)).map (x :: ·) := by
      rw [printf1.eq_def]
      split
      · rename_i h; cases h
      · rename_i h; injection h with h _; exact absurd h hx
      · rename_i h; injection h with h _; exact absurd h hx
      · rename_i h
        injection h with h1 h2
        subst h1 h2
        rw [if_neg hx]
    rw [List.cons_append, this, ih hs.2, Option.map_map]
    rfl

theorem printf1_verb (c r : Bytes) : printf1 c (ascii "%[1]v" ++ r) = (printf1 c r).map (c ++ ·) := by
  have : ascii "%[1]v" ++ r = 37 :: 91 :: 49 :: 93 :: 118 :: r := rfl
  rw [this, printf1.eq_def]
  rfl

theorem printf1_percent (c r : Bytes) : printf1 c (ascii "%%" ++ r) = (printf1 c r).map ([37] ++ ·) := by
  have : ascii "%%" ++ r = 37 :: 37 :: r := rfl
  rw [this, printf1.eq_def]
  rfl

theorem voxcutFmt_eq (args : List Bytes) : voxcutFmt args = ascii "voxcut -ostl out%[1]v.stl" ++
    args.flatMap fun a => ascii " " ++ trimStl a ++ ascii "%[1]v.binvox" := by
  unfold voxcutFmt
  generalize ascii "voxcut -ostl out%[1]v.stl" = s
  induction args generalizing s with
  | nil => simp
  | cons a args ih => rw [List.foldl_cons, ih, List.flatMap_cons]; simp only [List.append_assoc]

theorem printf1_args (c : Bytes) (args : List Bytes) (h : ∀ a ∈ args, (37 : UInt8) ∉ trimStl a) :
    printf1 c ((args.flatMap fun a => ascii " " ++ trimStl a ++ ascii "%[1]v.binvox") ++ ascii "\n") =
      some ((args.flatMap fun a => ascii " " ++ trimStl a ++ c ++ ascii ".binvox") ++ ascii "\n") := by
  induction args with
  | nil => rfl
  | cons a args ih =>
    have ih := ih fun x hx => h x (by simp [hx])
    rw [List.flatMap_cons, List.flatMap_cons]
    have hsp : (37 : UInt8) ∉ ascii " " ++ trimStl a := by
      rw [List.mem_append, not_or]
      exact ⟨by decide, h a (by simp)⟩
    have e : ascii "%[1]v.binvox" = ascii "%[1]v" ++ ascii ".binvox" := by decide
    rw [e] at ih ⊢
    simp only [List.append_assoc] at ih ⊢
    rw [← List.append_assoc (ascii " "), printf1_plain c hsp, printf1_verb, printf1_plain c (by decide : (37 : UInt8) ∉ ascii ".binvox"), ih]
    simp only [Option.map_some, List.append_assoc]

theorem voxcutFmt_printed (c : Bytes) (args : List Bytes) (h : ∀ a ∈ args, (37 : UInt8) ∉ trimStl a) :
    printf1 c (voxcutFmt args ++ ascii "\n") = some (line ([ascii "voxcut", ascii "-ostl", ascii "out" ++ c ++ ascii ".stl"] ++
      args.map fun a => trimStl a ++ c ++ ascii ".binvox")) := by
  have e : ascii "voxcut -ostl out%[1]v.stl" = ascii "voxcut -ostl out" ++ (ascii "%[1]v" ++ ascii ".stl") := by decide
  have hargs := printf1_args c args h
  rw [voxcutFmt_eq, e]
  simp only [List.append_assoc] at hargs ⊢
  rw [printf1_plain c (by decide), printf1_verb, printf1_plain c (by decide : (37 : UInt8) ∉ ascii ".stl"), hargs]
  simp only [Option.map_some]
  congr 1
  unfold line
  rw [List.cons_append, intersperse_append_map]
  simp only [List.cons_append, List.nil_append, List.flatMap_cons, List.flatMap_map]
  have e2 : ascii "voxcut -ostl out" = ascii "voxcut" ++ ([32] ++ ascii "-ostl" ++ ([32] ++ ascii "out")) := by decide
  have e3 : ascii " " = [32] := by decide
  have e4 : ascii "\n" = [10] := by decide
  rw [e2, e3, e4]
  simp only [List.append_assoc, List.cons_append, List.nil_append]

theorem binvoxLine_words {F : Type} [FloatText F] (b : Box F) (a : Bytes) :
    binvoxLine b a = line ([ascii "binvox", ascii "-pb", ascii "-d", ascii "1024", ascii "-bb"] ++
      [FloatText.fmtG b.Min.X, FloatText.fmtG b.Min.Y, FloatText.fmtG b.Min.Z, FloatText.fmtG b.Max.X,
       FloatText.fmtG b.Max.Y, FloatText.fmtG b.Max.Z] ++ [a]) := by
  have e1 : ascii "binvox -pb -d " = ascii "binvox" ++ ([32] ++ ascii "-pb" ++ ([32] ++ ascii "-d" ++ [32])) := by decide
  have e2 : ascii " -bb " = [32] ++ ascii "-bb" ++ [32] := by decide
  have e3 : ascii " " = [32] := by decide
  have e4 : ascii "\n" = [10] := by decide
  have e5 : fmtInt 1024 = ascii "1024" := by decide
  unfold binvoxLine line
  rw [e1, e2, e3, e4, e5, show ∀ (x y : List Bytes), [ascii "binvox", ascii "-pb", ascii "-d", ascii "1024", ascii "-bb"] ++ x ++ y =
    ascii "binvox" :: ([ascii "-pb", ascii "-d", ascii "1024", ascii "-bb"] ++ x ++ y) from fun _ _ => rfl, intersperse_append_map]
  simp only [List.cons_append, List.nil_append, List.flatMap_cons, List.flatMap_nil, List.append_assoc, List.append_nil]

theorem range_flatMap {α : Type} (a b : Nat) (g : Nat → Nat → α) :
    ((List.range a).flatMap fun i => (List.range b).map (g i)) = (List.range (a * b)).map fun n => g (n / b) (n % b) := by
  induction a with
  | zero => simp
  | succ a ih =>
    rw [List.range_succ, List.flatMap_append, ih, Nat.succ_mul, List.range_add, List.map_append]
    congr 1
    rw [List.flatMap_cons, List.flatMap_nil, List.append_nil, List.map_map]
    apply List.map_congr_left
    intro n hn
    rw [List.mem_range] at hn
    have hb : 0 < b := by omega
    show g a n = g ((a * b + n) / b) ((a * b + n) % b)
    rw [Nat.mul_comm a b, Nat.mul_add_div hb, Nat.div_eq_of_lt hn, Nat.mul_add_mod, Nat.mod_eq_of_lt hn, Nat.add_zero]

/-- The order of the boxes. -/
theorem tileIndices_range (xf yf zf : Int) : tileIndices xf yf zf =
    (List.range (xf.toNat * yf.toNat * zf.toNat)).map fun n =>
      ⟨((n % xf.toNat : Nat) : Int), ((n / xf.toNat % yf.toNat : Nat) : Int), ((n / (xf.toNat * yf.toNat) : Nat) : Int)⟩ := by
  have ir : ∀ n : Int, intRange 0 n = (List.range n.toNat).map fun k : Nat => (k : Int) := by
    intro n
    unfold intRange
    simp
  unfold tileIndices
  rw [ir, ir, ir]
  simp only [List.flatMap_map, List.map_map]
  have h1 : ∀ z : Nat, ((List.range yf.toNat).flatMap fun y : Nat => (List.range xf.toNat).map
      ((fun xi : Int => (⟨xi, (y : Int), (z : Int)⟩ : Key)) ∘ fun k : Nat => (k : Int))) =
      (List.range (yf.toNat * xf.toNat)).map fun n => (⟨((n % xf.toNat : Nat) : Int), ((n / xf.toNat : Nat) : Int), (z : Int)⟩ : Key) := by
    intro z
    exact range_flatMap yf.toNat xf.toNat (fun y x => (⟨(x : Int), (y : Int), (z : Int)⟩ : Key))
  simp only [h1]
  rw [range_flatMap zf.toNat (yf.toNat * xf.toNat) (fun z n => (⟨((n % xf.toNat : Nat) : Int), ((n / xf.toNat : Nat) : Int), (z : Int)⟩ : Key))]
  have e : zf.toNat * (yf.toNat * xf.toNat) = xf.toNat * yf.toNat * zf.toNat := by
    rw [Nat.mul_comm yf.toNat, Nat.mul_comm]
  rw [e]
  apply List.map_congr_left
  intro n hn
  rw [Key.mk.injEq]
  refine ⟨?_, ?_, ?_⟩
  · rw [Nat.mod_mod_of_dvd n (Nat.dvd_mul_left _ _)]
  · rw [Nat.mul_comm yf.toNat, Nat.mod_mul_right_div_self]
  · rw [Nat.mul_comm yf.toNat]

theorem cutSuffix_nth (n : Nat) : cutSuffix n = nth n := by
  unfold cutSuffix nth
  by_cases h : n = 0
  · subst h; rfl
  · rw [if_pos (by omega), if_neg h]

theorem subFactor_toNat (f : Int) (b : Bool) : (subFactor f b).toNat = axisBoxes f b := by
  unfold subFactor axisBoxes
  cases b <;> rfl

section
variable {F : Type} [GoFloat F] [FloatText F]

theorem binvoxBox_lines {args : List Bytes} (h : ∀ a ∈ args, (37 : UInt8) ∉ trimStl a) (b : DiceBox F) :
    binvoxBox args b = some (([[]] :: (args.map fun a => [ascii "binvox", ascii "-pb", ascii "-d", ascii "1024", ascii "-bb"] ++
      [FloatText.fmtG b.box.Min.X, FloatText.fmtG b.box.Min.Y, FloatText.fmtG b.box.Min.Z, FloatText.fmtG b.box.Max.X,
       FloatText.fmtG b.box.Max.Y, FloatText.fmtG b.box.Max.Z] ++ [a]) ++
      [[ascii "voxcut", ascii "-ostl", ascii "out" ++ b.suffix ++ ascii ".stl"] ++
        args.map fun a => trimStl a ++ b.suffix ++ ascii ".binvox"]).flatMap line) := by
  unfold binvoxBox
  rw [voxcutFmt_printed _ args h, Option.map_some]
  congr 1
  rw [List.flatMap_append, List.flatMap_cons, List.flatMap_map, List.flatMap_cons, List.flatMap_nil, List.append_nil]
  have : (fun a => binvoxLine b.box a) = binvoxLine b.box := rfl
  simp only [← binvoxLine_words, this]
  rfl

theorem binvoxBoxes_lines {args : List Bytes} (h : ∀ a ∈ args, (37 : UInt8) ∉ trimStl a) (f : DiceBox F → List (List Bytes))
    (hf : ∀ b, binvoxBox args b = some ((f b).flatMap line)) (bs : List (DiceBox F)) :
    binvoxBoxes args bs = some ((bs.flatMap f).flatMap line) := by
  induction bs with
  | nil => rfl
  | cons b bs ih =>
    rw [binvoxBoxes, hf, ih, List.flatMap_cons, List.flatMap_append]

theorem header_lines (quote : Bytes → Bytes) (fl : BinvoxDiceFlags) (hne : fl.args ≠ []) :
    binvoxHeader quote fl = (diceHeader quote fl).flatMap line := by
  obtain ⟨a, rest, ha⟩ := List.exists_cons_of_ne_nil hne
  unfold binvoxHeader diceHeader line
  rw [ha, joinSp_intersperse]
  simp only [List.headD_cons, List.tail_cons, List.flatMap_cons, List.flatMap_nil, intersperse_append_map,
    List.append_nil]
  have e1 : ascii "#!/bin/bash -x\n" = ascii "#!/bin/bash" ++ ([32] ++ ascii "-x" ++ [10]) := by decide
  have e2 : ascii "# Generated with command line:\n" = ascii "#" ++ ([32] ++ ascii "Generated" ++ ([32] ++ ascii "with" ++
    ([32] ++ ascii "command" ++ ([32] ++ ascii "line:" ++ [10])))) := by decide
  have e3 : ascii "# binvox-dice \\\n#\t-factor " = ascii "#" ++ ([32] ++ ascii "binvox-dice" ++ ([32] ++ ascii "\\" ++ ([10] ++
    (ascii "#\t-factor" ++ [32])))) := by decide
  have e4 : ascii " \\\n#\t-mbb " = [32] ++ ascii "\\" ++ ([10] ++ (ascii "#\t-mbb" ++ [32])) := by decide
  have e5 : ascii " \\\n#\t-subx " = [32] ++ ascii "\\" ++ ([10] ++ (ascii "#\t-subx" ++ [32])) := by decide
  have e6 : ascii " \\\n#\t-suby " = [32] ++ ascii "\\" ++ ([10] ++ (ascii "#\t-suby" ++ [32])) := by decide
  have e7 : ascii " \\\n#\t-subz " = [32] ++ ascii "\\" ++ ([10] ++ (ascii "#\t-subz" ++ [32])) := by decide
  have e8 : ascii " \\\n#\t" = [32] ++ ascii "\\" ++ ([10] ++ ascii "#\t") := by decide
  have e9 : ascii "\n" = [10] := by decide
  have eb : ∀ b, fmtBool b = boolText b := fun _ => rfl
  rw [e1, e2, e3, e4, e5, e6, e7, e8, e9, eb, eb, eb]
  simp only [List.append_assoc, List.flatMap_nil, List.append_nil]

/-- **C82.** What binvox-dice prints, byte for byte, if the names have no `%`: the comment, and for each box, x
    running fastest, one binvox line per file with the bounds of the box and one voxcut line. -/
theorem binvox_script (quote : Bytes → Bytes) (fl : BinvoxDiceFlags) (mbb : Box F) (hne : fl.args ≠ [])
    (h : ∀ a ∈ fl.args, (37 : UInt8) ∉ trimStl a) :
    binvoxScript quote fl mbb = some ((diceLines quote fl mbb).flatMap line) := by
  unfold binvoxScript
  rw [binvoxBoxes_lines h _ (binvoxBox_lines h), Option.map_some, header_lines quote fl hne]
  congr 1
  unfold diceLines
  rw [List.flatMap_append]
  congr 2
  unfold binvoxDice
  rw [tileIndices_range, subFactor_toNat, subFactor_toNat, subFactor_toNat]
  rw [List.flatMap_map, List.zipIdx_map, List.flatMap_map]
  generalize hN : axisBoxes fl.factor fl.subX * axisBoxes fl.factor fl.subY * axisBoxes fl.factor fl.subZ = N
  have hz : (List.range N).zipIdx = (List.range N).map fun n => (n, n) := by
    apply List.ext_getElem?
    intro i
    rw [List.getElem?_zipIdx, List.getElem?_map]
    by_cases hi : i < N
    · rw [List.getElem?_range hi]; simp
    · rw [List.getElem?_eq_none (by simpa using hi)]; rfl
  rw [hz, List.flatMap_map]
  have hsub : ∀ (b : Bool), 0 < axisBoxes fl.factor b → subFactor fl.factor b = (axisBoxes fl.factor b : Nat) := by
    intro b hb
    rw [← subFactor_toNat] at hb ⊢
    omega
  by_cases h0 : N = 0
  · subst h0; rfl
  · have hx : 0 < axisBoxes fl.factor fl.subX := by
      rcases Nat.eq_zero_or_pos (axisBoxes fl.factor fl.subX) with e | e
      · rw [e] at hN; simp at hN; omega
      · exact e
    have hy : 0 < axisBoxes fl.factor fl.subY := by
      rcases Nat.eq_zero_or_pos (axisBoxes fl.factor fl.subY) with e | e
      · rw [e] at hN; simp at hN; omega
      · exact e
    have hz' : 0 < axisBoxes fl.factor fl.subZ := by
      rcases Nat.eq_zero_or_pos (axisBoxes fl.factor fl.subZ) with e | e
      · rw [e] at hN; simp at hN; omega
      · exact e
    rw [hsub _ hx, hsub _ hy, hsub _ hz']
    apply List.flatMap_congr
    intro n _
    unfold boxLines boxNumbers
    simp only [Function.comp, cutSuffix_nth]
    rfl

/-- **C82.** A `%` in a name is not copied to the voxcut line: for the file `p%%q.stl` binvox is run on `p%%q.stl`, but
    voxcut is told to read `p%q.binvox`. -/
theorem binvox_script_percent (p q : Bytes) (hp : (37 : UInt8) ∉ p) (hq : (37 : UInt8) ∉ q) (n : Nat) :
    printf1 (cutSuffix n) (voxcutFmt [p ++ ascii "%%" ++ q ++ ascii ".stl"] ++ ascii "\n") =
      some (line [ascii "voxcut", ascii "-ostl", ascii "out" ++ nth n ++ ascii ".stl", p ++ ascii "%" ++ q ++ nth n ++ ascii ".binvox"]) := by
  have e : ascii "voxcut -ostl out%[1]v.stl" = ascii "voxcut -ostl out" ++ (ascii "%[1]v" ++ ascii ".stl") := by decide
  have e1 : ascii "%[1]v.binvox" = ascii "%[1]v" ++ ascii ".binvox" := by decide
  rw [cutSuffix_nth, voxcutFmt_eq, e, List.flatMap_cons, List.flatMap_nil, (trimStl_spec _).1, e1]
  simp only [List.append_assoc, List.append_nil]
  rw [printf1_plain _ (by decide), printf1_verb, printf1_plain _ (by decide : (37 : UInt8) ∉ ascii ".stl"),
    printf1_plain _ (by decide : (37 : UInt8) ∉ ascii " "), printf1_plain _ hp, printf1_percent, printf1_plain _ hq,
    printf1_verb, printf1_plain _ (by decide : (37 : UInt8) ∉ ascii ".binvox"),
    show printf1 (nth n) (ascii "\n") = some (ascii "\n") from rfl]
  simp only [Option.map_some]
  congr 1
  unfold line
  rw [intersperse_append_map]
  have e2 : ascii "voxcut -ostl out" = ascii "voxcut" ++ ([32] ++ ascii "-ostl" ++ ([32] ++ ascii "out")) := by decide
  have e3 : ascii " " = [32] := by decide
  have e4 : ascii "\n" = [10] := by decide
  have e5 : ascii "%" = [37] := by decide
  rw [e2, e3, e4, e5]
  simp only [List.append_assoc, List.flatMap_cons, List.flatMap_nil, List.append_nil]

end

/-! ## Examples -/

/-- `100%%new.stl`: the names are `100%new.binvox`, `100%new_1.binvox`, ... -/
example := binvox_script_percent (ascii "100") (ascii "new") (by decide) (by decide) 1

end Cmd
end StlDice
