import Verif.Props.Commands
import Verif.Props.StlMerge

/-! # C75: merge-stl from the files that match to the file it leaves -/

namespace StlDice
namespace Cmd
open Spec BinVOX

section
variable {F : Type} {load : Bytes → Option (List (Tri (Vec F)))} {lib : GL F} {d d' : Disk} {pre : Bytes} {force : Bool}
  {workers : Nat} {globbed : List Bytes} {e : Exit}

/-- **C75.** merge-stl changes no file but `prefix.stl`; it changes none and fails when that file exists
    and `-f` was not given, or when one of the other files cannot be loaded. -/
theorem merge_stl_touches (h : MergeStlRun load lib d pre force workers globbed d' e) :
    (∀ n, n ≠ pre ++ ascii ".stl" → d' n = d n) ∧
    ((pre ++ ascii ".stl" ∈ globbed ∧ force = false ∨ ∃ f ∈ globbed, f ≠ pre ++ ascii ".stl" ∧ load f = none) →
      d' = d ∧ e = .fatal) := by
  have hbad : ∀ {files s r}, mergeInputs (pre ++ ascii ".stl") force globbed = some files →
      PoolReach load workers (Pool.init files) s → s.returned = some (some r) →
      (pre ++ ascii ".stl" ∈ globbed ∧ force = false ∨ ∃ f ∈ globbed, f ≠ pre ++ ascii ".stl" ∧ load f = none) → False := by
    intro files s r hm hr he hb
    rcases hb with hb | ⟨f, hf, hne, hl⟩
    · rw [(mergeInputs_exact _ _ _).1.mpr hb] at hm
      cases hm
    · have e1 := (mergeInputs_exact _ _ _).2 _ hm
      have := (merge_result files s hr _ he).2 ⟨f, by rw [e1]; exact List.mem_filter.mpr ⟨hf, by simpa using hne⟩, hl⟩
      cases this
  cases h with
  | refused h => exact ⟨fun _ _ => rfl, fun _ => ⟨rfl, rfl⟩⟩
  | failed h hr he => exact ⟨fun _ _ => rfl, fun _ => ⟨rfl, rfl⟩⟩
  | nilMesh h hr he => exact ⟨fun n hn => put_other _ _ hn, fun hb => (hbad h hr he hb).elim⟩
  | nilNotCreated h hr he => exact ⟨fun n hn => rfl, fun hb => (hbad h hr he hb).elim⟩
  | saved h hr he hs => exact ⟨fun n hn => save_other hs hn, fun hb => (hbad h hr he hb).elim⟩

/-- **C75.** If merge-stl reports success, at least one other file matched, all of them could be loaded, and
    `prefix.stl` is the STL file of all their triangles, each file once, whatever order the workers took. -/
theorem merge_stl_done (h : MergeStlRun load lib d pre force workers globbed d' .done) :
    (∃ f ∈ globbed, f ≠ pre ++ ascii ".stl") ∧
    (∀ f ∈ globbed, f ≠ pre ++ ascii ".stl" → (load f).isSome) ∧
    ∃ order, order.Perm (globbed.filter fun f => f ≠ pre ++ ascii ".stl") ∧
      d' (pre ++ ascii ".stl") = some (lib.stl (allTriangles load order)) := by
  generalize he : Exit.done = e at h
  cases h with
  | refused h => cases he
  | failed h hr he => cases he
  | nilMesh h hr he => cases he
  | nilNotCreated h hr he => cases he
  | @saved files s tris d' ok h hr hret hs =>
    cases ok with
    | false => cases he
    | true =>
      have e1 := (mergeInputs_exact _ _ _).2 _ h
      obtain ⟨g1, g2⟩ := merge_result files s hr _ hret
      have hall : ∀ f ∈ files, (load f).isSome := by
        intro f hf
        cases hl : load f with
        | some _ => rfl
        | none => have := g2 ⟨f, hf, hl⟩; cases this
      obtain ⟨order, ho, hres⟩ := g1 hall
      by_cases h0 : files = []
      · rw [if_pos h0] at hres
        cases hres
      rw [if_neg h0] at hres
      injection hres with hres
      injection hres with hres
      refine ⟨?_, ?_, order, e1 ▸ ho, ?_⟩
      · obtain ⟨f, hf⟩ := List.exists_mem_of_ne_nil _ h0
        rw [e1, List.mem_filter] at hf
        exact ⟨f, hf.1, by simpa using hf.2⟩
      · intro f hf hne
        exact hall f (by rw [e1]; exact List.mem_filter.mpr ⟨hf, by simpa using hne⟩)
      · rw [save_ok hs, put_self, hres]

/-- **C75.** The merged file reads back as all triangles of all files, rounded to float32, in some order. -/
theorem merge_stl_file (h : MergeStlRun load lib d pre force workers globbed d' .done) {f32 : Nat → F} {parseF : Bytes → F} :
    ∃ file, d' (pre ++ ascii ".stl") = some file ∧
      (file.length < 84 + 50 * 4294967296 → ∃ ts, StlText.stlToMesh f32 parseF file = .ok ts ∧
        ts.Perm ((allTriangles load (globbed.filter fun f => f ≠ pre ++ ascii ".stl")).map
          (moveTri (asFloat32 lib.bits f32)))) := by
  obtain ⟨-, -, order, ho, hf⟩ := merge_stl_done h
  refine ⟨_, hf, fun hl => ⟨_, stl_parses lib _ hl, List.Perm.map _ ?_⟩⟩
  unfold allTriangles
  exact ho.flatMap_right _

/-- **C75.** When no other file matches, merge-stl never succeeds: it panics and leaves an empty
    `prefix.stl` — overwriting, with `-f`, one that was there — or fails to create it. -/
theorem merge_stl_nothing (h : MergeStlRun load lib d pre force workers globbed d' e)
    (hg : ∀ f ∈ globbed, f = pre ++ ascii ".stl") (hf : force = true ∨ globbed = []) :
    (e = .panic ∧ d' = put d (pre ++ ascii ".stl") []) ∨ (e = .fatal ∧ d' = d) := by
  have h0 : ∀ {files}, mergeInputs (pre ++ ascii ".stl") force globbed = some files → files = [] := by
    intro files h
    rw [(mergeInputs_exact _ _ _).2 _ h, List.filter_eq_nil_iff]
    intro f hf
    simpa using hg f hf
  cases h with
  | refused h => exact Or.inr ⟨rfl, rfl⟩
  | failed h hr he => exact Or.inr ⟨rfl, rfl⟩
  | nilMesh h hr he => exact Or.inl ⟨rfl, rfl⟩
  | nilNotCreated h hr he => exact Or.inr ⟨rfl, rfl⟩
  | @saved files s tris _ ok h hr he hs =>
    exfalso
    obtain ⟨g1, -⟩ := merge_result files s hr _ he
    have h0 := h0 h
    obtain ⟨order, -, hres⟩ := g1 (by rw [h0]; simp)
    rw [if_pos h0] at hres
    cases hres

/-- **C75.** With at least one worker, another file, all of them loadable, no refusal and a working file
    system, there is a run that succeeds (and by C40 every run ends). -/
theorem merge_stl_succeeds (hw : 1 ≤ workers) (hf : force = true ∨ pre ++ ascii ".stl" ∉ globbed)
    (hex : ∃ f ∈ globbed, f ≠ pre ++ ascii ".stl")
    (hall : ∀ f ∈ globbed, f ≠ pre ++ ascii ".stl" → (load f).isSome) :
    ∃ d', MergeStlRun load lib d pre force workers globbed d' .done := by
  cases hm : mergeInputs (pre ++ ascii ".stl") force globbed with
  | none =>
    obtain ⟨h1, h2⟩ := (mergeInputs_exact _ _ _).1.mp hm
    rcases hf with hf | hf
    · rw [h2] at hf; cases hf
    · exact (hf h1).elim
  | some files =>
    have e1 := (mergeInputs_exact _ _ _).2 _ hm
    obtain ⟨s, r, hr, hret⟩ := merge_returns (load := load) hw files
    obtain ⟨order, -, hres⟩ := (merge_result files s hr r hret).1 (by
      intro f hf
      rw [e1, List.mem_filter] at hf
      exact hall f hf.1 (by simpa using hf.2))
    have hne : files ≠ [] := by
      obtain ⟨f, hf, hne⟩ := hex
      rw [e1]
      exact List.ne_nil_of_mem (List.mem_filter.mpr ⟨hf, by simpa using hne⟩)
    rw [if_neg hne] at hres
    rw [hres] at hret
    exact ⟨_, .saved hm hr hret .ok⟩

end

/-- The hypotheses are met: two tiles on the disk, merged to a file that reads back as both of them. -/
theorem exMerge_runs (lib : GL ℚ) (t1 t2 : Tri (Vec ℚ)) :
    ∃ (load : Bytes → Option (List (Tri (Vec ℚ)))) (d' : Disk),
      MergeStlRun load lib (fun _ => none) (ascii "out") false 2 [ascii "out-1.stl", ascii "out-2.stl"] d' .done ∧
      allTriangles load ([ascii "out-1.stl", ascii "out-2.stl"].filter fun f => f ≠ ascii "out" ++ ascii ".stl") = [t1, t2] := by
  refine ⟨fun f => if f = ascii "out-1.stl" then some [t1] else some [t2], ?_⟩
  obtain ⟨d', h⟩ := merge_stl_succeeds (lib := lib) (d := fun _ => none) (pre := ascii "out") (force := false) (workers := 2)
    (globbed := [ascii "out-1.stl", ascii "out-2.stl"]) (load := fun f => if f = ascii "out-1.stl" then some [t1] else some [t2])
    (by decide) (Or.inr (by decide)) ⟨ascii "out-1.stl", by decide, by decide⟩ (by
      intro f _ _
      split <;> rfl)
  refine ⟨d', h, ?_⟩
  have e : ([ascii "out-1.stl", ascii "out-2.stl"].filter fun f => f ≠ ascii "out" ++ ascii ".stl") =
      [ascii "out-1.stl", ascii "out-2.stl"] := by decide
  rw [e]
  unfold allTriangles
  rw [List.flatMap_cons, List.flatMap_cons, List.flatMap_nil]
  have e1 : (if ascii "out-1.stl" = ascii "out-1.stl" then some [t1] else some [t2]) = some [t1] := if_pos rfl
  have e2 : (if ascii "out-2.stl" = ascii "out-1.stl" then some [t1] else some [t2]) = some [t2] := if_neg (by decide)
  show ((if ascii "out-1.stl" = ascii "out-1.stl" then some [t1] else some [t2]) : Option _).getD [] ++
    (((if ascii "out-2.stl" = ascii "out-1.stl" then some [t1] else some [t2]) : Option _).getD [] ++ []) = _
  rw [e1, e2]
  rfl

/-- `merge_stl_touches`, `merge_stl_done` and `merge_stl_file` on this run: the output is one binary file with both triangles, and nothing else
changed. -/
example (lib : GL ℚ) (f32 : Nat → ℚ) (parseF : Bytes → ℚ) (t1 t2 : Tri (Vec ℚ)) : ∃ (d' : Disk) (file : Bytes), d' (ascii "out" ++ ascii ".stl") = some file ∧
    d' (ascii "out-1.stl") = none ∧
    (file.length < 84 + 50 * 4294967296 → ∃ ts, StlText.stlToMesh f32 parseF file = .ok ts ∧ ts.Perm ([t1, t2].map (moveTri (asFloat32 lib.bits f32)))) := by
  obtain ⟨load, d', h, e⟩ := exMerge_runs lib t1 t2
  obtain ⟨file, hf, hp⟩ := merge_stl_file h (f32 := f32) (parseF := parseF)
  obtain ⟨-, -, order, -, -⟩ := merge_stl_done h
  rw [e] at hp
  exact ⟨d', file, hf, (merge_stl_touches h).1 _ (by decide), hp⟩

/-- `merge_stl_touches` when the output is there, and `merge_stl_nothing` when there is no other file. -/
example (load : Bytes → Option (List (Tri (Vec ℚ)))) (lib : GL ℚ) (d : Disk) : MergeStlRun load lib d (ascii "o") false 2 [ascii "o.stl"] d .fatal :=
  .refused (by decide)

example (load : Bytes → Option (List (Tri (Vec ℚ)))) (lib : GL ℚ) (d d' : Disk) (e : Exit) (h : MergeStlRun load lib d (ascii "o") true 2 [ascii "o.stl"] d' e) :=
  merge_stl_nothing h (by decide) (.inl rfl)

end Cmd
end StlDice
