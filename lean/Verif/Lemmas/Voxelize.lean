import Verif.Spec.Voxelize
import Verif.Lemmas.GoMap
import Verif.Lemmas.Grid
import Verif.Props.Raster

/-! # Lemmas on the voxelization model -/

namespace StlDice
open Spec

/-! ## Interleavings -/

theorem interleave_mem {α : Type} {ls : List (List α)} {l : List α} (h : Interleave ls l) (a : α) :
    a ∈ l ↔ ∃ x ∈ ls, a ∈ x := by
  induction h with
  | done ls h =>
    constructor
    · intro h'; cases h'
    · rintro ⟨x, hx, ha⟩
      rw [h x hx] at ha
      cases ha
  | step pre post b x l _ ih =>
    rw [List.mem_cons, ih]
    constructor
    · rintro (rfl | ⟨y, hy, hay⟩)
      · exact ⟨a :: x, by simp, by simp⟩
      · rw [List.mem_append, List.mem_cons] at hy
        rcases hy with hy | rfl | hy
        · exact ⟨y, by simp [hy], hay⟩
        · exact ⟨b :: y, by simp, by simp [hay]⟩
        · exact ⟨y, by simp [hy], hay⟩
    · rintro ⟨y, hy, hay⟩
      rw [List.mem_append, List.mem_cons] at hy
      rcases hy with hy | rfl | hy
      · exact Or.inr ⟨y, by simp [hy], hay⟩
      · rw [List.mem_cons] at hay
        rcases hay with rfl | hay
        · exact Or.inl rfl
        · exact Or.inr ⟨x, by simp, hay⟩
      · exact Or.inr ⟨y, by simp [hy], hay⟩

/-- Every set of goroutines has a complete schedule (e.g. one after the other). -/
theorem interleave_exists {α : Type} (ls : List (List α)) : ∃ l, Interleave ls l := by
  suffices h : ∀ n (ls : List (List α)), ls.flatten.length = n → ∃ l, Interleave ls l from
    h _ ls rfl
  intro n
  induction n with
  | zero =>
    intro ls h
    refine ⟨[], .done ls ?_⟩
    exact List.flatten_eq_nil_iff.mp (List.length_eq_zero_iff.mp h)
  | succ n ih =>
    intro ls h
    have : ∃ x ∈ ls, x ≠ [] := by
      by_contra hc
      push Not at hc
      have : ls.flatten = [] := List.flatten_eq_nil_iff.mpr hc
      rw [this] at h
      exact absurd h (by simp)
    obtain ⟨x, hx, hne⟩ := this
    obtain ⟨pre, post, rfl⟩ := List.append_of_mem hx
    cases x with
    | nil => exact absurd rfl hne
    | cons a x =>
      obtain ⟨l, hl⟩ := ih (pre ++ x :: post) (by
        simp only [List.flatten_append, List.flatten_cons, List.length_append,
          List.length_cons] at h ⊢
        omega)
      exact ⟨a :: l, .step pre post a x l hl⟩

theorem foldl_setVoxel_has (ev : List Key) (k : Key) : ∀ m : WhiteVoxelMap,
    GoMap.has (ev.foldl setVoxel m) k = true ↔ GoMap.has m k = true ∨ k ∈ ev := by
  induction ev with
  | nil => intro m; simp
  | cons a ev ih =>
    intro m
    rw [List.foldl_cons, ih]
    unfold setVoxel
    rw [GoMap.has_set, List.mem_cons]
    by_cases h : a = k
    · simp [h]
    · simp [h, Ne.symm h]

theorem foldl_setVoxel_WF (ev : List Key) : ∀ m : WhiteVoxelMap, GoMap.WF m →
    GoMap.WF (ev.foldl setVoxel m) := by
  induction ev with
  | nil => intro m h; exact h
  | cons a ev ih => intro m h; exact ih _ (GoMap.WF_set h _ _)

/-! ## The shell of a slice -/

/-- the plot events of a list of pairs -/
def shellEvents {F : Type} [GoFloat F] (b : BinVOX F) (vpmm : F) (qs : List (Pair F)) :
    List (Nat × (Int × Int)) :=
  qs.flatMap fun q => (pairPoints b vpmm q).map fun p => (q.tri, p)

theorem foldl_rasterize {F : Type} [GoFloat F] (b : BinVOX F) (zi : Int) (vpmm : F)
    (qs : List (Pair F)) : ∀ st,
    qs.foldl (rasterizeShellPair b zi vpmm) st =
      (shellEvents b vpmm qs).foldl (fun st e => plot b.NY zi e.1 st e.2) st := by
  induction qs with
  | nil => intro st; rfl
  | cons q qs ih =>
    intro st
    rw [List.foldl_cons, ih]
    unfold shellEvents
    rw [List.flatMap_cons, List.foldl_append, List.foldl_map]
    rfl

/-- What is known about shell map and row bounds after the plot events `ev`. -/
structure ShellInv (NY zi : Int) (ev : List (Nat × (Int × Int))) (st : SetMap × XMinMax) : Prop where
  mem : ∀ k p, p ∈ st.1.at k ↔ k.Z = zi ∧ (0 ≤ k.Y ∧ k.Y < NY) ∧ (p, (k.X, k.Y)) ∈ ev
  nodup : ∀ k, (st.1.at k).Nodup
  wf : GoMap.WF st.2
  none : ∀ y, GoMap.get st.2 y = none → ∀ p x, (p, (x, y)) ∈ ev → ¬ (0 ≤ y ∧ y < NY)
  some : ∀ y v, GoMap.get st.2 y = some v → (0 ≤ y ∧ y < NY) ∧ (∃ p, (p, (v.1, y)) ∈ ev) ∧
    (∃ p, (p, (v.2, y)) ∈ ev) ∧ ∀ p x, (p, (x, y)) ∈ ev → v.1 ≤ x ∧ x ≤ v.2

theorem shellInv_nil (NY zi : Int) : ShellInv NY zi [] ([], []) := by
  refine ⟨?_, ?_, ?_, ?_, ?_⟩
  · intro k p; simp [SetMap.at]
  · intro k; simp [SetMap.at]
  · exact GoMap.WF_nil
  · intro y _ p x h; cases h
  · intro y v h; simp at h

theorem addTri_at (s : SetMap) (k k' : Key) (t : Nat) :
    (addTri s k t).at k' = if k = k' then (if t ∈ s.at k then s.at k else s.at k ++ [t]) else s.at k' := by
  unfold addTri
  by_cases h : t ∈ s.at k
  · have : (s.at k).any (fun u => u == t) = true := by
      rw [List.any_eq_true]; exact ⟨t, h, by simp⟩
    rw [if_pos this]
    by_cases hk : k = k'
    · subst hk; simp [h]
    · simp [hk]
  · have : ¬ (s.at k).any (fun u => u == t) = true := by
      rw [List.any_eq_true]; rintro ⟨u, hu, he⟩
      have : u = t := by simpa using he
      exact h (this ▸ hu)
    rw [if_neg this]
    unfold SetMap.at at *
    rw [GoMap.get_set]
    by_cases hk : k = k'
    · subst hk; simp [h]
    · simp [hk]

theorem update_get (m : XMinMax) (xi yi y : Int) :
    GoMap.get (XMinMax.update m xi yi) y =
      if yi = y then
        match GoMap.get m yi with
        | some v => some (min v.1 xi, max v.2 xi)
        | none => some (xi, xi)
      else GoMap.get m y := by
  unfold XMinMax.update
  cases h : GoMap.get m yi with
  | none =>
    dsimp only
    rw [GoMap.get_set]
  | some v =>
    dsimp only
    rw [GoMap.get_set]
    by_cases hy : yi = y
    · rw [if_pos hy, if_pos hy]
      congr 1
      obtain ⟨a, c⟩ := v
      by_cases h1 : xi < a
      · by_cases h2 : xi > c
        · simp [h1, h2]; omega
        · simp [h1, h2]; omega
      · by_cases h2 : xi > c
        · simp [h1, h2]; omega
        · simp [h1, h2]; omega
    · rw [if_neg hy, if_neg hy]

theorem update_WF (m : XMinMax) (xi yi : Int) (h : GoMap.WF m) : GoMap.WF (XMinMax.update m xi yi) := by
  unfold XMinMax.update
  cases GoMap.get m yi with
  | none => exact GoMap.WF_set h _ _
  | some v => exact GoMap.WF_set h _ _

theorem shellInv_step (NY zi : Int) (ev : List (Nat × (Int × Int))) (st : SetMap × XMinMax)
    (e : Nat × (Int × Int)) (h : ShellInv NY zi ev st) :
    ShellInv NY zi (ev ++ [e]) (plot NY zi e.1 st e.2) := by
  obtain ⟨t, x, y⟩ := e
  unfold plot
  by_cases hy : y ≥ 0 ∧ y < NY
  · rw [if_pos hy]
    refine ⟨?_, ?_, ?_, ?_, ?_⟩
    · intro k p
      show p ∈ (addTri st.1 ⟨x, y, zi⟩ t).at k ↔ _
      rw [addTri_at, List.mem_append, List.mem_singleton]
      by_cases hk : (⟨x, y, zi⟩ : Key) = k
      · rw [if_pos hk]
        subst hk
        have h1 := h.mem ⟨x, y, zi⟩ p
        have h2 : (p, ((⟨x, y, zi⟩ : Key).X, (⟨x, y, zi⟩ : Key).Y)) = (t, (x, y)) ↔ p = t := by
          constructor
          · intro h; injection h
          · rintro rfl; rfl
        rw [h2]
        split
        · rename_i ht
          rw [h1]
          constructor
          · rintro ⟨a, b, c⟩; exact ⟨a, b, Or.inl c⟩
          · rintro ⟨a, b, c | rfl⟩
            · exact ⟨a, b, c⟩
            · exact ⟨a, b, ((h.mem ⟨x, y, zi⟩ p).mp ht).2.2⟩
        · rw [List.mem_append, h1, List.mem_singleton]
          constructor
          · rintro (⟨a, b, c⟩ | rfl)
            · exact ⟨a, b, Or.inl c⟩
            · exact ⟨rfl, hy, Or.inr rfl⟩
          · rintro ⟨a, b, c | rfl⟩
            · exact Or.inl ⟨a, b, c⟩
            · exact Or.inr rfl
      · rw [if_neg hk, h.mem]
        constructor
        · rintro ⟨a, b, c⟩; exact ⟨a, b, Or.inl c⟩
        · rintro ⟨a, b, c | c⟩
          · exact ⟨a, b, c⟩
          · exfalso
            injection c with _ c2
            injection c2 with c3 c4
            apply hk
            obtain ⟨X, Y, Z⟩ := k
            simp only at a c3 c4
            rw [← a, ← c3, ← c4]
    · intro k
      show ((addTri st.1 ⟨x, y, zi⟩ t).at k).Nodup
      rw [addTri_at]
      split
      · split
        · exact h.nodup _
        · rename_i hnt
          rw [List.nodup_append]
          refine ⟨h.nodup _, List.nodup_singleton _, ?_⟩
          intro a ha b hb
          rw [List.mem_singleton] at hb
          rintro rfl
          exact hnt (hb ▸ ha)
      · exact h.nodup _
    · exact update_WF _ _ _ h.wf
    · intro y' hn p x' hm
      have hn' : GoMap.get (XMinMax.update st.2 x y) y' = none := hn
      rw [update_get] at hn'
      split at hn'
      · split at hn' <;> cases hn'
      · rename_i hne
        rw [List.mem_append, List.mem_singleton] at hm
        rcases hm with hm | hm
        · exact h.none y' hn' p x' hm
        · injection hm with _ hm; injection hm with _ hm; exact absurd hm.symm hne
    · intro y' v hv
      have hv' : GoMap.get (XMinMax.update st.2 x y) y' = some v := hv
      rw [update_get] at hv'
      split at hv'
      · rename_i hyy
        subst hyy
        refine ⟨hy, ?_⟩
        cases hg : GoMap.get st.2 y with
        | none =>
          rw [hg] at hv'
          injection hv' with hv'
          subst hv'
          refine ⟨⟨t, by simp⟩, ⟨t, by simp⟩, ?_⟩
          intro p x' hm
          rw [List.mem_append, List.mem_singleton] at hm
          rcases hm with hm | hm
          · exact absurd hy (h.none y hg p x' hm)
          · injection hm with _ hm; injection hm with hm _
            subst hm
            exact ⟨le_refl _, le_refl _⟩
        | some w =>
          rw [hg] at hv'
          injection hv' with hv'
          subst hv'
          obtain ⟨_, ⟨p1, h1⟩, ⟨p2, h2⟩, h3⟩ := h.some y w hg
          refine ⟨?_, ?_, ?_⟩
          · show ∃ p, (p, (min w.1 x, y)) ∈ _
            rcases le_total w.1 x with hl | hl
            · rw [min_eq_left hl]; exact ⟨p1, List.mem_append_left _ h1⟩
            · rw [min_eq_right hl]; exact ⟨t, by simp⟩
          · show ∃ p, (p, (max w.2 x, y)) ∈ _
            rcases le_total w.2 x with hl | hl
            · rw [max_eq_right hl]; exact ⟨t, by simp⟩
            · rw [max_eq_left hl]; exact ⟨p2, List.mem_append_left _ h2⟩
          · intro p x' hm
            show min w.1 x ≤ x' ∧ x' ≤ max w.2 x
            rw [List.mem_append, List.mem_singleton] at hm
            rcases hm with hm | hm
            · have := h3 p x' hm
              omega
            · injection hm with _ hm; injection hm with hm _
              omega
      · rename_i hne
        obtain ⟨h0, ⟨p1, h1⟩, ⟨p2, h2⟩, h3⟩ := h.some y' v hv'
        refine ⟨h0, ⟨p1, List.mem_append_left _ h1⟩, ⟨p2, List.mem_append_left _ h2⟩, ?_⟩
        intro p x' hm
        rw [List.mem_append, List.mem_singleton] at hm
        rcases hm with hm | hm
        · exact h3 p x' hm
        · injection hm with _ hm; injection hm with _ hm; exact absurd hm.symm hne
  · rw [if_neg hy]
    refine ⟨?_, h.nodup, h.wf, ?_, ?_⟩
    · intro k p
      rw [h.mem, List.mem_append, List.mem_singleton]
      constructor
      · rintro ⟨a, b, c⟩; exact ⟨a, b, Or.inl c⟩
      · rintro ⟨a, b, c | c⟩
        · exact ⟨a, b, c⟩
        · exfalso
          injection c with _ c; injection c with _ c
          rw [c] at b; exact hy b
    · intro y' hn p x' hm
      rw [List.mem_append, List.mem_singleton] at hm
      rcases hm with hm | hm
      · exact h.none y' hn p x' hm
      · injection hm with _ hm; injection hm with _ hm
        subst hm; exact hy
    · intro y' v hv
      obtain ⟨h0, ⟨p1, h1⟩, ⟨p2, h2⟩, h3⟩ := h.some y' v hv
      refine ⟨h0, ⟨p1, List.mem_append_left _ h1⟩, ⟨p2, List.mem_append_left _ h2⟩, ?_⟩
      intro p x' hm
      rw [List.mem_append, List.mem_singleton] at hm
      rcases hm with hm | hm
      · exact h3 p x' hm
      · injection hm with _ hm; injection hm with _ hm
        subst hm; exact absurd h0 hy

theorem shellInv_foldl (NY zi : Int) (ev : List (Nat × (Int × Int))) : ∀ (ev0 : _) (st : _),
    ShellInv NY zi ev0 st →
    ShellInv NY zi (ev0 ++ ev) (ev.foldl (fun st e => plot NY zi e.1 st e.2) st) := by
  induction ev with
  | nil => intro ev0 st h; rw [List.append_nil]; exact h
  | cons e ev ih =>
    intro ev0 st h
    have := ih (ev0 ++ [e]) _ (shellInv_step NY zi ev0 st e h)
    rw [List.append_assoc, List.singleton_append] at this
    exact this

theorem intersectTri_ptr {F : Type} [GoFloat F] (p : Nat) (t : Triangle F) (z : F) (q : Pair F)
    (h : intersectTriZPlane p t z = some q) : q.tri = p := by
  unfold intersectTriZPlane at h
  dsimp only at h
  split at h
  · injection h with h; rw [← h]
  · split at h
    · injection h with h; rw [← h]
    · injection h with h; rw [← h]
    · cases h

/-- The shell map and row bounds of a slice in terms of `Touches`. -/
structure ShellSpec {F : Type} [GoFloat F] (b : BinVOX F) (m : Mesh F) (zi : Int)
    (st : SetMap × XMinMax) : Prop where
  mem : ∀ k p, p ∈ st.1.at k ↔ k.Z = zi ∧ Touches b m zi k.Y p k.X
  nodup : ∀ k, (st.1.at k).Nodup
  wf : GoMap.WF st.2
  none : ∀ y, GoMap.get st.2 y = none → ∀ p x, ¬ Touches b m zi y p x
  some : ∀ y v, GoMap.get st.2 y = some v → (∃ p, Touches b m zi y p v.1) ∧
    (∃ p, Touches b m zi y p v.2) ∧ ∀ p x, Touches b m zi y p x → v.1 ≤ x ∧ x ≤ v.2

theorem sliceShell_spec {F : Type} [GoFloat F] (b : BinVOX F) (m : Mesh F) (zi : Int) :
    ShellSpec b m zi (sliceShell b m zi) := by
  unfold sliceShell
  rw [foldl_rasterize]
  have h := shellInv_foldl b.NY zi
    (shellEvents b b.VoxelsPerMM (intersectZPlane m (sliceHeight b zi))) [] ([], []) (shellInv_nil _ _)
  rw [List.nil_append] at h
  generalize (List.foldl _ _ _ : SetMap × XMinMax) = st at h
  have hev : ∀ p x y, (p, (x, y)) ∈ shellEvents b b.VoxelsPerMM (intersectZPlane m (sliceHeight b zi)) ↔
      p ∈ m.Triangles ∧ ∃ q, intersectTriZPlane p (m.heap p) (sliceHeight b zi) = some q ∧
        (x, y) ∈ pairPoints b b.VoxelsPerMM q := by
    intro p x y
    unfold shellEvents intersectZPlane
    rw [List.mem_flatMap]
    constructor
    · rintro ⟨q, hq, hp⟩
      obtain ⟨p', hp', hi⟩ := List.mem_filterMap.mp hq
      obtain ⟨xy, hxy, he⟩ := List.mem_map.mp hp
      injection he with e1 e2
      have := intersectTri_ptr _ _ _ _ hi
      have hpp : p' = p := by rw [← this, e1]
      subst hpp; subst e2
      exact ⟨hp', q, hi, hxy⟩
    · rintro ⟨hp, q, hq, hxy⟩
      refine ⟨q, List.mem_filterMap.mpr ⟨p, hp, hq⟩, List.mem_map.mpr ⟨(x, y), hxy, ?_⟩⟩
      rw [intersectTri_ptr _ _ _ _ hq]
  have hT : ∀ p x y, Touches b m zi y p x ↔ (0 ≤ y ∧ y < b.NY) ∧
      (p, (x, y)) ∈ shellEvents b b.VoxelsPerMM (intersectZPlane m (sliceHeight b zi)) := by
    intro p x y
    rw [hev]
    unfold Touches
    constructor
    · rintro ⟨h1, h2, h3, h4⟩; exact ⟨⟨h2, h3⟩, h1, h4⟩
    · rintro ⟨⟨h2, h3⟩, h1, h4⟩; exact ⟨h1, h2, h3, h4⟩
  refine ⟨?_, h.nodup, h.wf, ?_, ?_⟩
  · intro k p
    rw [hT]; exact h.mem k p
  · intro y hn p x ht
    rw [hT] at ht
    exact h.none y hn p x ht.2 ht.1
  · intro y v hv
    obtain ⟨h0, ⟨p1, h1⟩, ⟨p2, h2⟩, h3⟩ := h.some y v hv
    refine ⟨⟨p1, (hT _ _ _).mpr ⟨h0, h1⟩⟩, ⟨p2, (hT _ _ _).mpr ⟨h0, h2⟩⟩, ?_⟩
    intro p x ht
    exact h3 p x ((hT _ _ _).mp ht).2

end StlDice
