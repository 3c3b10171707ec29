import Verif.Model.StlMerge
import Mathlib.Data.List.Perm.Basic
import Mathlib.Data.List.Perm.Lattice

/-! # C40: stl.Merge -/

namespace StlDice
namespace Spec

/-- The triangles of all files in the order `fs`. -/
def allTriangles {T : Type} (load : Bytes → Option (List T)) (fs : List Bytes) : List T :=
  fs.flatMap fun f => (load f).getD []

/-- The files being processed: their goroutine has not yet given its slot back. -/
def inProgress {T : Type} (s : Pool T) : Nat := (s.workers.filter fun w => w.2.holds).length

end Spec
open Spec

variable {T : Type} {load : Bytes → Option (List T)} {cap : Nat}

/-- Files of workers that have not delivered yet. -/
def Pool.pending (s : Pool T) : List Bytes :=
  (s.workers.filter fun w => match w.2 with | .start => true | .loaded _ => true | _ => false).map Prod.fst

/-- The invariant of the pool. -/
structure Pool.Inv (load : Bytes → Option (List T)) (cap : Nat) (files : List Bytes) (s : Pool T) : Prop where
  tokens : s.tokens = inProgress s
  bound : s.tokens ≤ cap
  wg : s.wg = s.workers.length
  loaded : ∀ f m, (f, WorkerPC.loaded m) ∈ s.workers → load f = some m
  acc : ∃ added failed, (added ++ failed ++ s.pending ++ s.todo).Perm files ∧
    (∀ f ∈ added, (load f).isSome) ∧ (∀ f ∈ failed, load f = none) ∧
    (s.err = true ↔ failed ≠ []) ∧
    s.mesh = if added = [] then none else some (allTriangles load added)
  ret : ∀ r, s.returned = some r → s.todo = [] ∧ s.workers = [] ∧
    r = if s.err then none else some s.mesh

theorem Pool.init_inv (files : List Bytes) : (Pool.init files : Pool T).Inv load cap files where
  tokens := rfl
  bound := Nat.zero_le _
  wg := rfl
  loaded := by intro f m h; cases h
  acc := ⟨[], [], by simp [Pool.pending, Pool.init], by simp, by simp, by simp [Pool.init], by simp [Pool.init]⟩
  ret := by intro r h; cases h


theorem inProgress_of (s : Pool T) (pre post : List (Bytes × WorkerPC T)) (w : Bytes × WorkerPC T)
    (h : s.workers = pre ++ w :: post) :
    inProgress s = (pre.filter fun w => w.2.holds).length + (if w.2.holds then 1 else 0) +
        (post.filter fun w => w.2.holds).length := by
  unfold inProgress
  rw [h, List.filter_append, List.filter_cons]
  split <;> simp <;> omega

theorem addMesh_all (added : List Bytes) (f : Bytes) (m : List T) (h : load f = some m) :
    addMesh (if added = [] then none else some (allTriangles load added)) m =
      allTriangles load (added ++ [f]) := by
  have e : allTriangles load (added ++ [f]) = allTriangles load added ++ m := by
    unfold allTriangles; simp [h]
  rw [e]
  split
  · rename_i h0; subst h0; rfl
  · rfl

theorem PoolStep.inv {files : List Bytes} {s t : Pool T} (h : s.Inv load cap files)
    (st : PoolStep load cap s t) : t.Inv load cap files := by
  obtain ⟨i1, i2, i3, i4, ⟨added, failed, a1, a2, a3, a4, a5⟩, i6⟩ := h
  have noret : ∀ {w : Bytes × WorkerPC T} {pre post}, s.workers = pre ++ w :: post → s.returned = none := by
    intro w pre post hw
    cases hr : s.returned with
    | none => rfl
    | some r => have := (i6 r hr).2.1; rw [hw] at this; simp at this
  cases st with
  | @spawn f fs h hc =>
    have hr : s.returned = none := by
      cases hr : s.returned with
      | none => rfl
      | some r => have := (i6 r hr).1; rw [h] at this; cases this
    refine ⟨?_, by show s.tokens + 1 ≤ cap; omega, ?_, ?_, ⟨added, failed, ?_, a2, a3, a4, a5⟩, ?_⟩
    · rw [inProgress_of _ s.workers [] (f, .start) rfl]
      show s.tokens + 1 = _
      rw [i1]
      unfold inProgress; simp [WorkerPC.holds]
    · show s.wg + 1 = _; rw [i3]; simp
    · intro g m hm
      rw [List.mem_append] at hm
      rcases hm with hm | hm
      · exact i4 g m hm
      · rw [List.mem_singleton] at hm; cases hm
    · rw [h] at a1
      unfold Pool.pending at *
      dsimp only
      rw [List.filter_append, List.map_append]
      simpa using a1
    · intro r hr'
      have e : some r = none := Eq.trans (Eq.symm hr') hr
      cases e
  | @loadOk pre post f m h hl =>
    have hr := noret h
    refine ⟨?_, i2, ?_, ?_, ⟨added, failed, ?_, a2, a3, a4, a5⟩, ?_⟩
    · rw [inProgress_of _ pre post _ rfl]
      show s.tokens = _
      rw [i1, inProgress_of s pre post _ h]; rfl
    · show s.wg = _; rw [i3, h]; simp
    · intro g m' hm
      rw [List.mem_append, List.mem_cons] at hm
      rcases hm with hm | hm | hm
      · exact i4 g m' (by rw [h]; simp [hm])
      · injection hm with e1 e2; injection e2 with e2; subst e1 e2; exact hl
      · exact i4 g m' (by rw [h]; simp [hm])
    · unfold Pool.pending at *
      rw [h] at a1
      dsimp only
      simpa [List.filter_append, List.filter_cons] using a1
    · intro r hr'
      have e : some r = none := Eq.trans (Eq.symm hr') hr
      cases e
  | @loadFail pre post f h hl =>
    have hr := noret h
    refine ⟨?_, i2, ?_, ?_, ⟨added, failed ++ [f], ?_, a2, ?_, ?_, a5⟩, ?_⟩
    · rw [inProgress_of _ pre post _ rfl]
      show s.tokens = _
      rw [i1, inProgress_of s pre post _ h]; rfl
    · show s.wg = _; rw [i3, h]; simp
    · intro g m' hm
      rw [List.mem_append, List.mem_cons] at hm
      rcases hm with hm | hm | hm
      · exact i4 g m' (by rw [h]; simp [hm])
      · cases hm
      · exact i4 g m' (by rw [h]; simp [hm])
    · refine List.Perm.trans ?_ a1
      unfold Pool.pending
      rw [h]
      simp only [List.filter_append, List.filter_cons, List.map_append, List.append_assoc, ite_true,
        List.map_cons, Bool.false_eq_true, ite_false, List.cons_append]
      refine List.Perm.append_left _ (List.Perm.append_left _ ?_)
      exact (List.perm_middle (l₁ := List.map Prod.fst (List.filter _ pre))).symm
    · intro g hg
      rw [List.mem_append, List.mem_singleton] at hg
      rcases hg with hg | rfl
      · exact a3 g hg
      · exact hl
    · simp
    · intro r hr'
      have e : some r = none := Eq.trans (Eq.symm hr') hr
      cases e
  | @add pre post f m h =>
    have hr := noret h
    have hl := i4 f m (by rw [h]; simp)
    refine ⟨?_, i2, ?_, ?_, ⟨added ++ [f], failed, ?_, ?_, a3, a4, ?_⟩, ?_⟩
    · rw [inProgress_of _ pre post _ rfl]
      show s.tokens = _
      rw [i1, inProgress_of s pre post _ h]; rfl
    · show s.wg = _; rw [i3, h]; simp
    · intro g m' hm
      rw [List.mem_append, List.mem_cons] at hm
      rcases hm with hm | hm | hm
      · exact i4 g m' (by rw [h]; simp [hm])
      · cases hm
      · exact i4 g m' (by rw [h]; simp [hm])
    · refine List.Perm.trans ?_ a1
      unfold Pool.pending
      rw [h]
      simp only [List.filter_append, List.filter_cons, List.map_append, List.append_assoc, ite_true,
        List.map_cons, Bool.false_eq_true, ite_false, List.cons_append]
      refine List.Perm.append_left _ ?_
      rw [← List.append_assoc failed, ← List.append_assoc failed, List.nil_append]
      exact List.perm_middle.symm
    · intro g hg
      rw [List.mem_append, List.mem_singleton] at hg
      rcases hg with hg | rfl
      · exact a2 g hg
      · rw [hl]; rfl
    · show some (addMesh s.mesh m) = _
      rw [a5, addMesh_all added f m hl, if_neg (by simp)]
    · intro r hr'
      have e : some r = none := Eq.trans (Eq.symm hr') hr
      cases e
  | @release pre post f h ht =>
    have hr := noret h
    refine ⟨?_, by show s.tokens - 1 ≤ cap; omega, ?_, ?_, ⟨added, failed, ?_, a2, a3, a4, a5⟩, ?_⟩
    · rw [inProgress_of _ pre post _ rfl]
      show s.tokens - 1 = _
      rw [i1, inProgress_of s pre post _ h]; simp only [WorkerPC.holds]; simp
    · show s.wg = _; rw [i3, h]; simp
    · intro g m' hm
      rw [List.mem_append, List.mem_cons] at hm
      rcases hm with hm | hm | hm
      · exact i4 g m' (by rw [h]; simp [hm])
      · cases hm
      · exact i4 g m' (by rw [h]; simp [hm])
    · unfold Pool.pending at *
      rw [h] at a1
      dsimp only
      simpa [List.filter_append, List.filter_cons] using a1
    · intro r hr'
      have e : some r = none := Eq.trans (Eq.symm hr') hr
      cases e
  | @wgDone pre post f h =>
    have hr := noret h
    refine ⟨?_, i2, ?_, ?_, ⟨added, failed, ?_, a2, a3, a4, a5⟩, ?_⟩
    · show s.tokens = _
      rw [i1, inProgress_of s pre post _ h]
      unfold inProgress; simp [WorkerPC.holds]
    · show s.wg - 1 = _; rw [i3, h]; simp
    · intro g m' hm
      rw [List.mem_append] at hm
      exact i4 g m' (by rw [h]; rcases hm with hm | hm <;> simp [hm])
    · unfold Pool.pending at *
      rw [h] at a1
      dsimp only
      simpa [List.filter_append, List.filter_cons] using a1
    · intro r hr'
      have e : some r = none := Eq.trans (Eq.symm hr') hr
      cases e
  | ret h hw hr =>
    refine ⟨i1, i2, i3, i4, ⟨added, failed, a1, a2, a3, a4, a5⟩, ?_⟩
    intro r hr'
    have e : r = if s.err then none else some s.mesh := by
      have : some (if s.err then none else some s.mesh) = some r := hr'
      injection this with this; exact this.symm
    refine ⟨h, ?_, e⟩
    rw [i3] at hw
    exact List.length_eq_zero_iff.mp hw

theorem PoolReach.inv {files : List Bytes} {s : Pool T} (h : PoolReach load cap (Pool.init files) s) :
    s.Inv load cap files := by
  induction h with
  | refl => exact Pool.init_inv files
  | tail _ st ih => exact st.inv ih

/-- **C40, bounded concurrency.** In every reachable state at most numWorkers files are being processed. -/
theorem merge_bounded (files : List Bytes) (s : Pool T) (h : PoolReach load cap (Pool.init files) s) :
    inProgress s ≤ cap := by
  have i := h.inv
  rw [← i.tokens]; exact i.bound

/-- **C40, result.** Whatever the schedule: if every file can be loaded, `Merge` returns all triangles of all
    files, each file once, in some order of the files (a nil mesh for no files); if some file cannot be
    loaded, it returns an error. -/
theorem merge_result (files : List Bytes) (s : Pool T) (h : PoolReach load cap (Pool.init files) s)
    (r : Option (Option (List T))) (hr : s.returned = some r) :
    ((∀ f ∈ files, (load f).isSome) → ∃ order, order.Perm files ∧
      r = some (if files = [] then none else some (allTriangles load order))) ∧
    ((∃ f ∈ files, load f = none) → r = none) := by
  obtain ⟨_, _, _, _, ⟨added, failed, a1, a2, a3, a4, a5⟩, i6⟩ := h.inv
  obtain ⟨e1, e2, e3⟩ := i6 r hr
  have hp : s.pending = [] := by unfold Pool.pending; rw [e2]; rfl
  rw [e1, hp, List.append_nil, List.append_nil] at a1
  constructor
  · intro hall
    have hf : failed = [] := by
      cases hf : failed with
      | nil => rfl
      | cons f l =>
        have m1 : f ∈ failed := by rw [hf]; simp
        have := a1.mem_iff.mp (List.mem_append_right added m1)
        have h1 := hall f this
        rw [a3 f m1] at h1; cases h1
    have he : s.err = false := by
      cases he : s.err with
      | false => rfl
      | true => exact absurd hf (a4.mp he)
    rw [hf, List.append_nil] at a1
    refine ⟨added, a1, ?_⟩
    rw [e3, he, a5]
    have : added = [] ↔ files = [] := by
      constructor
      · rintro rfl; exact List.nil_perm.mp a1
      · rintro rfl; exact List.perm_nil.mp a1
    by_cases h0 : added = []
    · rw [if_pos h0, if_pos (this.mp h0)]; rfl
    · rw [if_neg h0, if_neg (fun h => h0 (this.mpr h))]; rfl
  · rintro ⟨f, hf, hl⟩
    have hm := a1.mem_iff.mpr hf
    rw [List.mem_append] at hm
    have : failed ≠ [] := by
      rcases hm with hm | hm
      · have := a2 f hm; rw [hl] at this; cases this
      · intro h0; rw [h0] at hm; cases hm
    rw [e3, a4.mpr this]; rfl

/-- **C40, no deadlock.** With at least one worker some step is possible in every reachable state in which
    `Merge` has not returned. -/
theorem merge_progress (hc : 1 ≤ cap) (files : List Bytes) (s : Pool T)
    (h : PoolReach load cap (Pool.init files) s) (hr : s.returned = none) :
    ∃ t, PoolStep load cap s t := by
  have i := h.inv
  cases hw : s.workers with
  | cons w ws =>
    obtain ⟨f, pc⟩ := w
    cases pc with
    | start =>
      cases hl : load f with
      | none => exact ⟨_, .loadFail (pre := []) hw hl⟩
      | some m => exact ⟨_, .loadOk (pre := []) hw hl⟩
    | loaded m => exact ⟨_, .add (pre := []) hw⟩
    | release =>
      refine ⟨_, .release (pre := []) hw ?_⟩
      rw [i.tokens, inProgress_of s [] ws _ hw]
      simp [WorkerPC.holds]
    | done => exact ⟨_, .wgDone (pre := []) hw⟩
  | nil =>
    cases ht : s.todo with
    | nil => exact ⟨_, .ret ht (by rw [i.wg, hw]; rfl) hr⟩
    | cons f fs =>
      refine ⟨_, .spawn ht ?_⟩
      rw [i.tokens]
      unfold inProgress
      rw [hw]
      exact hc

/-- Work left for a goroutine. -/
def WorkerPC.work : WorkerPC T → Nat
  | .start => 4
  | .loaded _ => 3
  | .release => 2
  | .done => 1

/-- Work left. -/
def Pool.work (s : Pool T) : Nat :=
  5 * s.todo.length + (s.workers.map fun w => w.2.work).sum + (if s.returned = none then 1 else 0)

/-- **C40, termination.** Every step reduces a number, so every schedule is finite (and by
    `merge_progress` ends with a return). -/
theorem merge_terminates {s t : Pool T} (st : PoolStep load cap s t) : t.work < s.work := by
  unfold Pool.work
  cases st with
  | @spawn f fs h hc => rw [h]; simp [WorkerPC.work]; omega
  | @loadOk pre post f m h hl => rw [h]; simp [WorkerPC.work]
  | @loadFail pre post f h hl => rw [h]; simp [WorkerPC.work]
  | @add pre post f m h => rw [h]; simp [WorkerPC.work]
  | @release pre post f h ht => rw [h]; simp [WorkerPC.work]
  | @wgDone pre post f h => rw [h]; simp [WorkerPC.work]
  | ret h hw hr => rw [hr]; simp

/-- **C40, zero workers.** With numWorkers = 0 and at least one file `Merge` is stuck at once: nothing can
    happen, so it never returns. -/
theorem merge_deadlock (files : List Bytes) (h : files ≠ []) (t : Pool T) :
    ¬ PoolStep load 0 (Pool.init files) t := by
  intro st
  cases st with
  | spawn h hc => omega
  | loadOk h _ => simp [Pool.init] at h
  | loadFail h _ => simp [Pool.init] at h
  | add h => simp [Pool.init] at h
  | release h _ => simp [Pool.init] at h
  | wgDone h => simp [Pool.init] at h
  | ret h' hw hr => exact h h'

/-- Some schedule does return (so the hypotheses of `merge_result` are met for every input). -/
theorem merge_returns (hc : 1 ≤ cap) (files : List Bytes) :
    ∃ s r, PoolReach load cap (Pool.init files : Pool T) s ∧ s.returned = some r := by
  have : ∀ (n : Nat) (s : Pool T), s.work = n → PoolReach load cap (Pool.init files) s →
      ∃ s r, PoolReach load cap (Pool.init files : Pool T) s ∧ s.returned = some r := by
    intro n
    induction n using Nat.strong_induction_on with
    | _ n ih =>
      intro s hs hr
      cases hret : s.returned with
      | some r => exact ⟨s, r, hr, hret⟩
      | none =>
        obtain ⟨t, st⟩ := merge_progress hc files s hr hret
        exact ih t.work (hs ▸ merge_terminates st) t rfl (.tail hr st)
  exact this _ _ rfl (.refl _)

/-! ## The inputs of merge-stl and merge-binvox -/

/-- merge-stl refuses to run iff its output is among the matched files and -f is not given; otherwise it
    merges exactly the matched files other than the output, in order. -/
theorem mergeInputs_exact (outFile : Bytes) (force : Bool) (files : List Bytes) :
    (mergeInputs outFile force files = none ↔ outFile ∈ files ∧ force = false) ∧
    ∀ l, mergeInputs outFile force files = some l → l = files.filter (fun f => f ≠ outFile) := by
  induction files with
  | nil => exact ⟨by simp [mergeInputs], by intro l h; injection h with h; rw [← h]; rfl⟩
  | cons f fs ih =>
    unfold mergeInputs
    by_cases hf : f = outFile
    · rw [if_neg (by simp [hf])]
      cases force with
      | true =>
        rw [if_pos rfl]
        refine ⟨?_, ?_⟩
        · rw [ih.1]; simp
        · intro l hl
          rw [ih.2 l hl, List.filter_cons]; simp [hf]
      | false =>
        rw [if_neg (by simp)]
        exact ⟨by simp [hf], by intro l hl; cases hl⟩
    · rw [if_pos hf]
      cases hm : mergeInputs outFile force fs with
      | none =>
        refine ⟨?_, by intro l hl; cases hl⟩
        have := ih.1.mp hm
        simp [this]
      | some l' =>
        refine ⟨?_, ?_⟩
        · have h1 : ¬ (outFile ∈ fs ∧ force = false) := fun h => by rw [ih.1.mpr h] at hm; cases hm
          constructor
          · intro h; cases h
          · rintro ⟨h2, h3⟩
            rw [List.mem_cons] at h2
            rcases h2 with h2 | h2
            · exact absurd h2.symm hf
            · exact absurd ⟨h2, h3⟩ h1
        · intro l hl
          have : f :: l' = l := by
            have : some (f :: l') = some l := hl
            injection this
          rw [← this, ih.2 l' hm, List.filter_cons]
          simp [hf]

/-- merge-binvox compares its output `<prefix>.vsh` with names ending in `.binvox`, so the check never
    fires: an existing output is overwritten without -f. -/
theorem mergeBinvox_never_refuses (pre : Bytes) (files : List Bytes)
    (h : ∀ f ∈ files, ∃ stem, f = stem ++ ascii ".binvox") :
    mergeInputs (pre ++ ascii ".vsh") false files = some files := by
  have hne : ∀ stem, stem ++ ascii ".binvox" ≠ pre ++ ascii ".vsh" := by
    intro stem e
    have := congrArg (fun l => (List.reverse l).head?) e
    simp only [List.reverse_append] at this
    have a : (ascii ".binvox").reverse = 120 :: (ascii ".binvox").reverse.tail := by decide
    have b : (ascii ".vsh").reverse = 104 :: (ascii ".vsh").reverse.tail := by decide
    rw [a, b] at this
    simp at this
  have e := mergeInputs_exact (pre ++ ascii ".vsh") false files
  cases hm : mergeInputs (pre ++ ascii ".vsh") false files with
  | none =>
    obtain ⟨stem, hs⟩ := h _ (e.1.mp hm).1
    exact absurd hs.symm (hne stem)
  | some l =>
    rw [e.2 l hm, List.filter_eq_self.mpr]
    intro f hf
    obtain ⟨stem, rfl⟩ := h f hf
    simp only [ne_eq, decide_not, Bool.not_eq_eq_eq_not, Bool.not_true, decide_eq_false_iff_not]
    exact hne stem

example : mergeInputs (ascii "out.stl") false [ascii "out-1.stl", ascii "out.stl"] = none ∧
    mergeInputs (ascii "out.stl") true [ascii "out-1.stl", ascii "out.stl"] = some [ascii "out-1.stl"] := by
  decide

/-! ### The hypotheses are met -/

/-- Two files of one and two triangles (numbers here), any other file is missing. -/
def exLoad (f : Bytes) : Option (List Nat) := if f = ascii "a" then some [1] else if f = ascii "b" then some [2, 3] else none

/-- Two files with two workers: every run that returns delivers the three triangles, and never are more than two files in progress. -/
example : ∃ s r, PoolReach exLoad 2 (Pool.init [ascii "a", ascii "b"] : Pool Nat) s ∧ s.returned = some r ∧ inProgress s ≤ 2 ∧
    ∃ order : List Bytes, order.Perm [ascii "a", ascii "b"] ∧ r = some (some (allTriangles exLoad order)) := by
  obtain ⟨s, r, h, hr⟩ := merge_returns (load := exLoad) (cap := 2) (by omega) [ascii "a", ascii "b"]
  obtain ⟨order, ho, e⟩ := (merge_result _ s h r hr).1 (by decide)
  exact ⟨s, r, h, hr, merge_bounded _ s h, order, ho, e⟩

/-- A missing file: the error is returned. -/
example : ∃ s, PoolReach exLoad 2 (Pool.init [ascii "a", ascii "c"] : Pool Nat) s ∧ s.returned = some none := by
  obtain ⟨s, r, h, hr⟩ := merge_returns (load := exLoad) (cap := 2) (by omega) [ascii "a", ascii "c"]
  have := (merge_result _ s h r hr).2 (by decide)
  exact ⟨s, h, by rw [hr, this]⟩

/-- At the start there is a step, and it makes the work less; without workers there is none. -/
example : (∃ t, PoolStep exLoad 2 (Pool.init [ascii "a", ascii "b"] : Pool Nat) t ∧ t.work < (Pool.init [ascii "a", ascii "b"] : Pool Nat).work) ∧
    ∀ t, ¬ PoolStep exLoad 0 (Pool.init [ascii "a", ascii "b"] : Pool Nat) t := by
  obtain ⟨t, ht⟩ := merge_progress (load := exLoad) (cap := 2) (by omega) [ascii "a", ascii "b"] _ (.refl _) rfl
  exact ⟨⟨t, ht, merge_terminates ht⟩, merge_deadlock _ (by decide)⟩

example : mergeInputs (ascii "part" ++ ascii ".vsh") false [ascii "part-1.binvox", ascii "part-2.binvox"] =
    some [ascii "part-1.binvox", ascii "part-2.binvox"] :=
  mergeBinvox_never_refuses _ _ (by
    intro f hf
    simp only [List.mem_cons, List.not_mem_nil, or_false] at hf
    rcases hf with rfl | rfl
    · exact ⟨ascii "part-1", by decide⟩
    · exact ⟨ascii "part-2", by decide⟩)

end StlDice
