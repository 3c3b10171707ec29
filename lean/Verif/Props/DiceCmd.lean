import Verif.Model.DiceCmd
import Verif.Props.DiceFiles
import Verif.Spec.DiceScript

/-! # C77: what stldice prints -/

namespace StlDice
namespace Cmd
open Spec BinVOX
variable {F : Type}

/-! ## Names -/

theorem jobPrefix_spec (a : Bytes) (dim nx ny nz : Int) : jobPrefix a dim nx ny nz = jobName (trimStl a) dim nx ny nz := by
  unfold jobPrefix jobName dashed
  rw [ascii_dash]
  simp [List.intersperse]

theorem tileFile_spec (P : Bytes) (t : Key) : tileFile P t = tileName P t ++ ascii ".binvox" := by
  unfold tileFile tilePrefix tileName dashed
  rw [ascii_dash]
  simp [List.intersperse]

theorem tileName_suffix (P : Bytes) (t : Key) : tileName P t = P ++ tileSuffix t := by
  unfold tileSuffix tileName dashed
  rw [ascii_dash]
  simp [List.intersperse]

/-- `trimStl` removes one ending `.stl`, and nothing else. -/
theorem trimStl_spec (a : Bytes) : trimStl (a ++ ascii ".stl") = a ∧ ((¬ ∃ b, a = b ++ ascii ".stl") → trimStl a = a) := by
  constructor
  · unfold trimStl
    rw [List.reverse_append, stripPrefix_append]
    dsimp only
    rw [List.reverse_reverse]
  · intro h
    unfold trimStl
    cases hs : stripPrefix (ascii ".stl").reverse a.reverse with
    | none => rfl
    | some r =>
      exfalso
      have := stripPrefix_some hs
      apply h
      refine ⟨r.reverse, ?_⟩
      have h2 := congrArg List.reverse this
      rwa [List.reverse_reverse, List.reverse_append, List.reverse_reverse] at h2

/-! ## The tiles of one argument -/

theorem get_ne_none_has {m : FS} {n : Bytes} : m.get n ≠ none ↔ m.has n = true := by
  unfold GoMap.has
  cases m.get n <;> simp

/-- A run of the tile loop that returns no error: the new files and the returned suffixes are those of
    the tiles that had no file and are not empty, whatever the system calls did. -/
theorem diceLoop_some [FloatText F] (P : Bytes) (vox : Key → BinVOX F) (env : Key → FileEnv) (ts : List Key) :
    ∀ (fs : FS) (pf : List Bytes) (fs' : FS) (pf' : List Bytes), (∀ t ∈ ts, 0 ≤ t.X ∧ 0 ≤ t.Y ∧ 0 ≤ t.Z) →
    diceLoop P vox env ts fs pf = (fs', some pf') →
      (∀ v, v ∈ pf' ↔ v ∈ pf ∨ ∃ t ∈ ts, v = tileSuffix t ∧ fs.get (tileFile P t) = none ∧ fs'.get (tileFile P t) ≠ none) ∧
      (∀ n, fs.get n ≠ none → fs'.get n ≠ none) ∧
      (∀ n, fs.get n = none → fs'.get n ≠ none → ∃ t ∈ ts, n = tileFile P t) := by
  induction ts with
  | nil =>
    intro fs pf fs' pf' _ h
    simp only [diceLoop, Prod.mk.injEq, Option.some.injEq] at h
    obtain ⟨rfl, rfl⟩ := h
    exact ⟨by simp, fun _ h => h, fun n h h' => absurd h h'⟩
  | cons t ts ih =>
    intro fs pf fs' pf' hnn h
    have hnn' : ∀ t ∈ ts, 0 ≤ t.X ∧ 0 ≤ t.Y ∧ 0 ≤ t.Z := fun u hu => hnn u (by simp [hu])
    have hinj : ∀ u ∈ ts, tileFile P t = tileFile P u → t = u := fun u hu he =>
      (tileFile_injective P P t u (hnn t (by simp)) (hnn' u hu) he).2
    unfold diceLoop at h
    -- skipping: the tile's file stays as it was
    have skip : diceLoop P vox env ts fs pf = (fs', some pf') → fs.get (tileFile P t) ≠ none ∨ ((vox t).white.length = 0) →
        (∀ v, v ∈ pf' ↔ v ∈ pf ∨ ∃ u ∈ t :: ts, v = tileSuffix u ∧ fs.get (tileFile P u) = none ∧ fs'.get (tileFile P u) ≠ none) ∧
        (∀ n, fs.get n ≠ none → fs'.get n ≠ none) ∧
        (∀ n, fs.get n = none → fs'.get n ≠ none → ∃ u ∈ t :: ts, n = tileFile P u) := by
      intro h _
      obtain ⟨h1, h2, h3⟩ := ih fs pf fs' pf' hnn' h
      refine ⟨?_, h2, fun n a b => ?_⟩
      · intro v
        rw [h1]
        constructor
        · rintro (h | ⟨u, hu, h⟩)
          · exact Or.inl h
          · exact Or.inr ⟨u, by simp [hu], h⟩
        · rintro (h | ⟨u, hu, h, a, b⟩)
          · exact Or.inl h
          · obtain ⟨w, hw, e⟩ := h3 _ a b
            have : u = w := by
              refine (tileFile_injective P P u w (hnn u hu) (hnn' w hw) e).2
            subst this
            exact Or.inr ⟨u, hw, h, a, b⟩
      · obtain ⟨u, hu, e⟩ := h3 n a b
        exact ⟨u, by simp [hu], e⟩
    by_cases h1 : fs.has (tileFile P t) = true
    · rw [if_pos h1] at h
      exact skip h (Or.inl (get_ne_none_has.mpr h1))
    rw [if_neg h1] at h
    by_cases h2 : (vox t).white.length = 0
    · rw [if_pos h2] at h
      exact skip h (Or.inr h2)
    rw [if_neg h2] at h
    have hnone : fs.get (tileFile P t) = none := by
      by_contra hc
      exact h1 (get_ne_none_has.mp hc)
    dsimp only at h
    generalize hW : (vox t).Write (env t) ⟨0, 0, 0, 0, 0, 0⟩ = W at h
    obtain ⟨c, ok⟩ := W
    dsimp only at h
    cases ok with
    | false => simp at h
    | true =>
      rw [if_pos rfl, trim_tilePrefix] at h
      cases c with
      | none =>
        exfalso
        unfold BinVOX.Write at hW
        split at hW
        · cases hW
        · dsimp only at hW
          split at hW <;> cases hW
      | some c =>
        dsimp only at h
        obtain ⟨g1, g2, g3⟩ := ih _ _ _ _ hnn' h
        have hself : fs'.get (tileFile P t) ≠ none := g2 _ (by rw [GoMap.get_set, if_pos rfl]; exact fun h => nomatch h)
        refine ⟨?_, ?_, ?_⟩
        · intro v
          rw [g1, List.mem_append, List.mem_singleton]
          constructor
          · rintro ((h | rfl) | ⟨u, hu, h, a, b⟩)
            · exact Or.inl h
            · exact Or.inr ⟨t, by simp, rfl, hnone, hself⟩
            · refine Or.inr ⟨u, by simp [hu], h, ?_, b⟩
              rw [GoMap.get_set] at a
              split at a
              · cases a
              · exact a
          · rintro (h' | ⟨u, hu, h', a, b⟩)
            · exact Or.inl (Or.inl h')
            · rcases List.mem_cons.mp hu with hu | hu
              · rw [hu] at h'
                exact Or.inl (Or.inr h')
              · by_cases e : tileFile P t = tileFile P u
                · rw [← hinj u hu e] at h'
                  exact Or.inl (Or.inr h')
                · exact Or.inr ⟨u, hu, h', by rw [GoMap.get_set, if_neg e]; exact a, b⟩
        · intro n hn
          apply g2
          rw [GoMap.get_set]
          split
          · exact fun h => nomatch h
          · exact hn
        · intro n a b
          by_cases e : tileFile P t = n
          · exact ⟨t, by simp, e.symm⟩
          · obtain ⟨u, hu, e⟩ := g3 n (by rw [GoMap.get_set, if_neg e]; exact a) b
            exact ⟨u, by simp [hu], e⟩

/-! ## All arguments -/

theorem has_foldl_set (l : List Bytes) (m : GoMap Bytes Unit) (v : Bytes) :
    (l.foldl (fun m v => m.set v ()) m).has v = true ↔ m.has v = true ∨ v ∈ l := by
  induction l generalizing m with
  | nil => simp
  | cons a l ih =>
    rw [List.foldl_cons, ih, GoMap.has_set, Bool.or_eq_true, decide_eq_true_eq, List.mem_cons]
    constructor
    · rintro ((rfl | h) | h)
      · exact Or.inr (Or.inl rfl)
      · exact Or.inl h
      · exact Or.inr (Or.inr h)
    · rintro (h | rfl | h)
      · exact Or.inl (Or.inr h)
      · exact Or.inl (Or.inl rfl)
      · exact Or.inr h

theorem wf_foldl_set (l : List Bytes) (m : GoMap Bytes Unit) (h : m.WF) : (l.foldl (fun m v => m.set v ()) m).WF := by
  induction l generalizing m with
  | nil => exact h
  | cons a l ih => exact ih _ (GoMap.WF_set h _ _)

section
variable [GoFloat F] [FloatText F] {load : Bytes → Option (Mesh F)} {bbox : Mesh F → Box F} {env : Bytes → Key → FileEnv}

/-- The loop over the arguments, when it comes to its end. -/
theorem diceArgs_ok {dim nx ny nz : Int} {args : List Bytes} {fs fs' : FS} {mbb : Option (Box F)} {pf pf' : GoMap Bytes Unit}
    {r : Res (GoMap Bytes Unit)} (h : DiceArgs load bbox env dim nx ny nz args fs mbb pf fs' r) (hr : r = .ok pf') (hw : pf.WF) :
    pf'.WF ∧
    (∀ v, pf'.has v = true ↔ pf.has v = true ∨ ∃ t, InDims nx ny nz t ∧ v = tileSuffix t ∧ ∃ a ∈ args,
      fs.get (tileFile (jobPrefix a dim nx ny nz) t) = none ∧ fs'.get (tileFile (jobPrefix a dim nx ny nz) t) ≠ none) ∧
    (∀ n, fs.get n ≠ none → fs'.get n ≠ none) ∧
    (∀ n, fs.get n = none → fs'.get n ≠ none → ∃ a ∈ args, ∃ t, InDims nx ny nz t ∧ n = tileFile (jobPrefix a dim nx ny nz) t) := by
  induction h with
  | nil =>
    injection hr with hr
    subst hr
    exact ⟨hw, by simp, fun _ h => h, fun n h h' => absurd h h'⟩
  | unreadable _ => cases hr
  | layoutFails _ _ => cases hr
  | layoutPanics _ _ => cases hr
  | writeFails _ _ _ => cases hr
  | @next arg args fs mbb pf mesh L fs1 pfxs fs2 r h hl hd hn ih =>
    obtain ⟨vox, -, hd⟩ := hd
    obtain ⟨g1, g2, g3⟩ := diceLoop_some _ vox (env arg) _ fs [] fs1 pfxs (mem_tileIndices_nonneg nx ny nz) hd.symm
    obtain ⟨i0, i1, i2, i3⟩ := ih hr (wf_foldl_set _ _ hw)
    have nn : ∀ {t}, InDims nx ny nz t → 0 ≤ t.X ∧ 0 ≤ t.Y ∧ 0 ≤ t.Z := by
      intro t ht
      unfold InDims at ht
      omega
    refine ⟨i0, ?_, fun n hn => i2 n (g2 n hn), ?_⟩
    · intro v
      rw [i1, has_foldl_set, g1]
      constructor
      · rintro ((h | h | ⟨t, ht, e, a, b⟩) | ⟨t, ht, e, a', ha', c, d⟩)
        · exact Or.inl h
        · cases h
        · exact Or.inr ⟨t, (mem_tileIndices ..).mp ht, e, arg, by simp, a, i2 _ b⟩
        · refine Or.inr ⟨t, ht, e, a', by simp [ha'], ?_, d⟩
          by_contra hc
          exact g2 _ hc c
      · rintro (h | ⟨t, ht, e, a', ha', c, d⟩)
        · exact Or.inl (Or.inl h)
        · by_cases hb : fs1.get (tileFile (jobPrefix a' dim nx ny nz) t) = none
          · rcases List.mem_cons.mp ha' with rfl | ha'
            · obtain ⟨a2, ha2, t2, ht2, e2⟩ := i3 _ hb d
              obtain ⟨e3, e4⟩ := tileFile_injective _ _ t t2 (nn ht) (nn ht2) e2
              subst e4
              exact Or.inr ⟨t, ht, e, a2, ha2, by rw [← e2]; exact hb, by rw [← e2]; exact d⟩
            · exact Or.inr ⟨t, ht, e, a', ha', hb, d⟩
          · obtain ⟨t2, ht2, e2⟩ := g3 _ c hb
            obtain ⟨e3, e4⟩ := tileFile_injective _ _ t t2 (nn ht) (nn ((mem_tileIndices ..).mp ht2)) e2
            subst e4
            rw [e2] at c hb
            exact Or.inl (Or.inr (Or.inr ⟨t, ht2, e, c, hb⟩))
    · intro n a b
      by_cases hb : fs1.get n = none
      · obtain ⟨a2, ha2, t, ht, e⟩ := i3 n hb b
        exact ⟨a2, by simp [ha2], t, ht, e⟩
      · obtain ⟨t, ht, e⟩ := g3 n a hb
        exact ⟨arg, by simp, t, (mem_tileIndices ..).mp ht, e⟩

/-! ## The text -/

theorem exists_map_of_forall {α β : Type} (f : α → β) (p : α → Prop) : ∀ l : List β, (∀ v ∈ l, ∃ t, p t ∧ v = f t) →
    ∃ ts : List α, l = ts.map f ∧ ∀ t ∈ ts, p t := by
  intro l
  induction l with
  | nil => intro _; exact ⟨[], rfl, by simp⟩
  | cons v l ih =>
    intro h
    obtain ⟨t, hp, rfl⟩ := h v (by simp)
    obtain ⟨ts, rfl, hts⟩ := ih fun v hv => h v (by simp [hv])
    refine ⟨t :: ts, rfl, ?_⟩
    intro u hu
    rcases List.mem_cons.mp hu with rfl | hu
    · exact hp
    · exact hts u hu

/-- The name of the result of the script, without extension: the single argument's job, or
    `out-DIM-NX-NY-NZ`. -/
def _root_.StlDice.Spec.outName (fl : DiceFlags F) : Bytes :=
  jobName (match fl.args with
    | [a] => trimStl a
    | _ => ascii "out") fl.dim fl.nx fl.ny fl.nz

theorem intersperse_append_map (sep : Bytes) (w : Bytes) : ∀ (us : List Bytes),
    ((w :: us).intersperse sep).flatten = w ++ us.flatMap fun u => sep ++ u := by
  intro us
  induction us generalizing w with
  | nil => simp [List.intersperse]
  | cons u us ih =>
    rw [List.intersperse_cons_cons, List.flatten_cons, List.flatten_cons, ih, List.flatMap_cons]
    simp

theorem common_jobName (a : Bytes) (dim nx ny nz : Int) : a ++ ascii "-" ++ common dim nx ny nz = jobName a dim nx ny nz := by
  unfold common jobName dashed
  rw [ascii_dash]
  simp [List.intersperse]

omit [GoFloat F] [FloatText F] in
theorem outName_spec (fl : DiceFlags F) :
    stlOutPrefix fl.args ++ ascii "-" ++ common fl.dim fl.nx fl.ny fl.nz = outName fl := by
  rw [common_jobName]
  unfold outName stlOutPrefix
  rcases fl.args with _ | ⟨a, _ | ⟨b, l⟩⟩ <;> simp

omit [GoFloat F] [FloatText F] in
theorem script_text (fl : DiceFlags F) (h : fl.args ≠ []) (tiles : List Key) :
    script fl (tiles.map tileSuffix) = scriptText (outName fl) (fl.args.map fun a => jobName (trimStl a) fl.dim fl.nx fl.ny fl.nz)
      tiles := by
  unfold script scriptText
  have e1 : ascii "#!/bin/bash -x\n" = line [ascii "#!/bin/bash", ascii "-x"] := by decide
  have e2 : mergeLine fl = line [ascii "merge-stl", ascii "-f", ascii "-prefix", outName fl] := by
    unfold mergeLine line
    rw [← outName_spec]
    have x1 : ascii "merge-stl -f -prefix " = ascii "merge-stl" ++ [32] ++ ascii "-f" ++ [32] ++ ascii "-prefix" ++ [32] := by decide
    have x2 : ascii "\n" = [10] := by decide
    rw [x1, x2]
    simp [List.intersperse]
  have e3 : ∀ t, voxcutLine fl (tileSuffix t) = line ([ascii "voxcut", ascii "-ostl", tileName (outName fl) t ++ ascii ".stl"] ++
      (fl.args.map fun a => jobName (trimStl a) fl.dim fl.nx fl.ny fl.nz).map fun j => tileName j t ++ ascii ".binvox") := by
    intro t
    obtain ⟨a, l, hal⟩ := List.exists_cons_of_ne_nil h
    unfold voxcutLine line
    rw [tileName_suffix, ← outName_spec, List.cons_append, intersperse_append_map, hal]
    have x1 : ascii "voxcut -ostl " = ascii "voxcut" ++ [32] ++ ascii "-ostl" ++ [32] := by decide
    have x2 : ascii "\n" = [10] := by decide
    have x3 : ascii ".stl " = ascii ".stl" ++ [32] := by decide
    have x4 : ascii " " = [32] := by decide
    rw [x1, x2, x3, x4]
    simp only [List.headD_cons, List.tail_cons, List.map_cons, List.cons_append, List.nil_append, List.flatMap_cons,
      tileName_suffix, ← common_jobName, List.map_map, List.flatMap_map, Function.comp_apply, List.append_assoc]
  rw [e1, e2, List.flatMap_map, List.length_map]
  simp only [e3, gt_iff_lt]

/-- **C77.** stldice prints nothing unless every argument was diced without an error.  Then it prints,
    after the first line, exactly one voxcut line for every tile for which this run wrote the file of
    some argument, in the order of the bytes of the tile's name, and a final merge-stl line iff there
    is more than one. -/
theorem dice_script {fl : DiceFlags F} {fs fs' : FS} {out : Bytes} {e : Exit} (h : DiceCmd load bbox env fl fs out fs' e) :
    (e ≠ .done → out = []) ∧
    (e = .done → ∃ tiles : List Key,
      (∀ t, t ∈ tiles ↔ InDims fl.nx fl.ny fl.nz t ∧ ∃ a ∈ fl.args,
        fs.get (tileName (jobName (trimStl a) fl.dim fl.nx fl.ny fl.nz) t ++ ascii ".binvox") = none ∧
        fs'.get (tileName (jobName (trimStl a) fl.dim fl.nx fl.ny fl.nz) t ++ ascii ".binvox") ≠ none) ∧
      (tiles.map (tileName [])).Pairwise (· < ·) ∧
      out = scriptText (outName fl) (fl.args.map fun a => jobName (trimStl a) fl.dim fl.nx fl.ny fl.nz) tiles) := by
  cases h with
  | usage _ => exact ⟨fun _ => rfl, fun h => nomatch h⟩
  | notMultiple _ _ => exact ⟨fun _ => rfl, fun h => nomatch h⟩
  | divByZero _ _ => exact ⟨fun _ => rfl, fun h => nomatch h⟩
  | badMbb _ _ _ => exact ⟨fun _ => rfl, fun h => nomatch h⟩
  | failed _ _ _ _ _ => exact ⟨fun _ => rfl, fun h => nomatch h⟩
  | panics _ _ _ _ _ => exact ⟨fun _ => rfl, fun h => nomatch h⟩
  | @done mbb _ pf order h hd hm hb ha ho =>
    refine ⟨fun h => absurd rfl h, fun _ => ?_⟩
    obtain ⟨g0, g1, -, -⟩ := diceArgs_ok ha rfl GoMap.WF_nil
    have hp : (sortStrings order).Perm pf.keys := (List.perm_insertionSort _ _).trans ho
    have hmem : ∀ v, v ∈ sortStrings order ↔ ∃ t, InDims fl.nx fl.ny fl.nz t ∧ v = tileSuffix t ∧ ∃ a ∈ fl.args,
        fs.get (tileFile (jobPrefix a fl.dim fl.nx fl.ny fl.nz) t) = none ∧
        fs'.get (tileFile (jobPrefix a fl.dim fl.nx fl.ny fl.nz) t) ≠ none := by
      intro v
      rw [hp.mem_iff, GoMap.mem_keys_iff, g1]
      simp
    have hnd : (sortStrings order).Nodup := hp.nodup_iff.mpr g0
    have hsort : (sortStrings order).Pairwise (· ≤ ·) := List.pairwise_insertionSort _ _
    obtain ⟨tiles, ht, hin⟩ := exists_map_of_forall tileSuffix (fun t => InDims fl.nx fl.ny fl.nz t) (sortStrings order) (by
      intro v hv
      obtain ⟨t, ht, e, -⟩ := (hmem v).mp hv
      exact ⟨t, ht, e⟩)
    have nn : ∀ {t}, InDims fl.nx fl.ny fl.nz t → 0 ≤ t.X ∧ 0 ≤ t.Y ∧ 0 ≤ t.Z := by
      intro t ht
      unfold InDims at ht
      omega
    refine ⟨tiles, ?_, ?_, ?_⟩
    · intro t
      simp only [← tileFile_spec, ← jobPrefix_spec]
      constructor
      · intro htm
        have := (hmem (tileSuffix t)).mp (by rw [ht]; exact List.mem_map_of_mem htm)
        obtain ⟨u, hu, e, hh⟩ := this
        have := tileSuffix_injective t u (nn (hin t htm)) (nn hu) e
        subst this
        exact ⟨hu, hh⟩
      · rintro ⟨hi, hh⟩
        have := (hmem (tileSuffix t)).mpr ⟨t, hi, rfl, hh⟩
        rw [ht] at this
        obtain ⟨u, hu, e⟩ := List.mem_map.mp this
        have := tileSuffix_injective t u (nn hi) (nn (hin u hu)) e.symm
        rw [this]
        exact hu
    · have : tiles.map (tileName []) = sortStrings order := by
        rw [ht]
        apply List.map_congr_left
        intro t _
        exact tileName_suffix [] t
      rw [this]
      exact (hsort.and hnd).imp fun h => Std.lt_of_le_of_ne h.1 h.2
    · rw [ht]
      exact script_text fl h tiles

end
end Cmd
end StlDice
