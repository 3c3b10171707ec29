import Verif.Lemmas.Voxelize
import Mathlib.Data.List.Dedup

/-! # Flood filling a row -/

namespace StlDice
open Spec Classical

theorem foldl_countTri {F : Type} [GoFloat F] (m : Mesh F) (l : List Nat) :
    ∀ (c : FillCount), l.Nodup →
    (∀ p, p ∈ (l.foldl (countTri m) c).seen ↔ p ∈ c.seen ∨ p ∈ l) ∧
    (l.foldl (countTri m) c).inCount =
      c.inCount + (l.filter fun p => decide (p ∉ c.seen ∧ crossing m p = 1)).length ∧
    (l.foldl (countTri m) c).outCount =
      c.outCount + (l.filter fun p => decide (p ∉ c.seen ∧ crossing m p = -1)).length := by
  induction l with
  | nil => intro c _; simp
  | cons a l ih =>
    intro c hn
    have hna := (List.nodup_cons.mp hn).1
    have hnl := (List.nodup_cons.mp hn).2
    rw [List.foldl_cons]
    obtain ⟨h1, h2, h3⟩ := ih (countTri m c a) hnl
    by_cases hs : a ∈ c.seen
    · have hc : countTri m c a = c := by
        unfold countTri
        rw [if_pos (by simpa using hs)]
      rw [hc] at h1 h2 h3 ⊢
      refine ⟨?_, ?_, ?_⟩
      · intro p
        rw [h1, List.mem_cons]
        constructor
        · rintro (h | h)
          · exact Or.inl h
          · exact Or.inr (Or.inr h)
        · rintro (h | rfl | h)
          · exact Or.inl h
          · exact Or.inl hs
          · exact Or.inr h
      · rw [h2, List.filter_cons_of_neg]
        simp [hs]
      · rw [h3, List.filter_cons_of_neg]
        simp [hs]
    · have hc : countTri m c a = ⟨a :: c.seen,
          if crossing m a = 1 then c.inCount + 1 else c.inCount,
          if crossing m a = -1 then c.outCount + 1 else c.outCount⟩ := by
        unfold countTri
        rw [if_neg (by simpa using hs)]
      rw [hc] at h1 h2 h3 ⊢
      have hfil : ∀ d : Int, (l.filter fun p => decide (p ∉ a :: c.seen ∧ crossing m p = d))
          = (l.filter fun p => decide (p ∉ c.seen ∧ crossing m p = d)) := by
        intro d
        apply List.filter_congr
        intro p hp
        have : p ≠ a := fun h => hna (h ▸ hp)
        simp [this]
      refine ⟨?_, ?_, ?_⟩
      · intro p
        rw [h1]
        simp only [List.mem_cons]
        constructor
        · rintro ((h | h) | h)
          · exact Or.inr (Or.inl h)
          · exact Or.inl h
          · exact Or.inr (Or.inr h)
        · rintro (h | h | h)
          · exact Or.inl (Or.inr h)
          · exact Or.inl (Or.inl h)
          · exact Or.inr h
      · rw [h2]
        dsimp only
        rw [hfil]
        by_cases hx : crossing m a = 1
        · rw [if_pos hx, List.filter_cons_of_pos (by simp [hs, hx]), List.length_cons]
          push_cast; omega
        · rw [if_neg hx, List.filter_cons_of_neg (by simp [hx])]
      · rw [h3]
        dsimp only
        rw [hfil]
        by_cases hx : crossing m a = -1
        · rw [if_pos hx, List.filter_cons_of_pos (by simp [hs, hx]), List.length_cons]
          push_cast; omega
        · rw [if_neg hx, List.filter_cons_of_neg (by simp [hx])]

/-- The invariant linking the program's row state at `xi` to the specification. -/
theorem inside_succ (tris : List Nat) (T : Nat → Int → Prop) (kind : Nat → Int) (xi : Int) :
    Inside tris T kind (xi + 1) ↔
      Enters tris T kind xi ∨ (¬ Leaves tris T kind xi ∧ Inside tris T kind xi) := by
  unfold Inside
  constructor
  · rintro ⟨x0, h0, he, hl⟩
    by_cases hx : x0 = xi
    · subst hx; exact Or.inl he
    · refine Or.inr ⟨hl xi (by omega) (by omega), x0, by omega, he, ?_⟩
      intro x1 h1 h2
      exact hl x1 h1 (by omega)
  · rintro (he | ⟨hnl, x0, h0, he, hl⟩)
    · exact ⟨xi, by omega, he, fun x1 h1 h2 => by omega⟩
    · refine ⟨x0, by omega, he, ?_⟩
      intro x1 h1 h2
      by_cases hx : x1 = xi
      · subst hx; exact hnl
      · exact hl x1 h1 (by omega)

theorem crossings_eq (tris : List Nat) (T : Nat → Int → Prop) (kind : Nat → Int) (c x : Int)
    (l seen : List Nat) (hl : l.Nodup) (hm : ∀ p, p ∈ l ↔ T p x) (ht : ∀ p, T p x → p ∈ tris)
    (hs : ∀ p, p ∈ seen ↔ ∃ x' < x, T p x') :
    (l.filter fun p => decide (p ∉ seen ∧ kind p = c)).length = crossings tris T kind c x := by
  unfold crossings
  apply List.Perm.length_eq
  rw [List.perm_ext_iff_of_nodup (hl.filter _) ((List.nodup_dedup _).filter _)]
  intro p
  simp only [List.mem_filter, decide_eq_true_eq, List.mem_dedup]
  rw [hm, hs]
  unfold FirstTouch
  constructor
  · rintro ⟨h1, h2, h3⟩
    refine ⟨ht p h1, ⟨h1, ?_⟩, h3⟩
    intro x' hx' hT
    exact h2 ⟨x', hx', hT⟩
  · rintro ⟨_, ⟨h1, h2⟩, h3⟩
    refine ⟨h1, ?_, h3⟩
    rintro ⟨x', hx', hT⟩
    exact h2 x' hx' hT

theorem fillRow_mem {F : Type} [GoFloat F] (m : Mesh F) (NX yi zi : Int) (set : SetMap)
    (T : Nat → Int → Prop) (hT : ∀ x p, p ∈ set.at ⟨x, yi, zi⟩ ↔ T p x)
    (hnd : ∀ k, (set.at k).Nodup) (htri : ∀ p x, T p x → p ∈ m.Triangles) (n : Nat) :
    ∀ (xi : Int) (inside : Bool) (seen : List Nat),
      (inside = true ↔ Inside m.Triangles T (crossing m) xi) →
      (∀ p, p ∈ seen ↔ ∃ x' < xi, T p x') →
      ∀ k, k ∈ fillRow m NX yi zi set n xi inside seen ↔
        k.Y = yi ∧ k.Z = zi ∧ xi ≤ k.X ∧ k.X < xi + n ∧ k.X < NX ∧
          ((∃ p, T p k.X) ∨ (0 ≤ k.X ∧ Inside m.Triangles T (crossing m) k.X)) := by
  induction n with
  | zero =>
    intro xi inside seen _ _ k
    unfold fillRow
    constructor
    · intro h; cases h
    · rintro ⟨_, _, h1, h2, _⟩
      push_cast at h2; omega
  | succ n ih =>
    intro xi inside seen hin hseen k
    unfold fillRow
    by_cases hNX : xi ≥ NX
    · rw [if_pos hNX]
      constructor
      · intro h; cases h
      · rintro ⟨_, _, h1, _, h2, _⟩; omega
    · rw [if_neg hNX]
      dsimp only
      -- splitting the range of k.X at xi
      have key : ∀ (P : Prop) (L : List Key), (P ↔ ((∃ p, T p xi) ∨ (0 ≤ xi ∧ Inside m.Triangles T (crossing m) xi))) →
          (∀ k, k ∈ L ↔ k.Y = yi ∧ k.Z = zi ∧ xi + 1 ≤ k.X ∧ k.X < xi + 1 + n ∧ k.X < NX ∧
            ((∃ p, T p k.X) ∨ (0 ≤ k.X ∧ Inside m.Triangles T (crossing m) k.X))) →
          ((P ∧ k = ⟨xi, yi, zi⟩) ∨ k ∈ L ↔ k.Y = yi ∧ k.Z = zi ∧ xi ≤ k.X ∧ k.X < xi + ((n + 1 : Nat) : Int) ∧ k.X < NX ∧
            ((∃ p, T p k.X) ∨ (0 ≤ k.X ∧ Inside m.Triangles T (crossing m) k.X))) := by
        intro P L hP hL
        rw [hL]
        constructor
        · rintro (⟨hp, rfl⟩ | ⟨a, b, c, d, e, f⟩)
          · refine ⟨rfl, rfl, le_refl _, ?_, ?_, hP.mp hp⟩
            · show xi < xi + ((n + 1 : Nat) : Int)
              push_cast; omega
            · show xi < NX
              omega
          · exact ⟨a, b, by omega, by push_cast; omega, e, f⟩
        · rintro ⟨a, b, c, d, e, f⟩
          push_cast at d
          by_cases hx : k.X = xi
          · left
            refine ⟨hP.mpr (hx ▸ f), ?_⟩
            obtain ⟨X, Y, Z⟩ := k
            simp only at a b hx
            rw [a, b, hx]
          · right
            exact ⟨a, b, by omega, by omega, e, f⟩
      by_cases hne : (set.at ⟨xi, yi, zi⟩).length > 0
      · rw [if_pos hne]
        obtain ⟨c1, c2, c3⟩ := foldl_countTri m (set.at ⟨xi, yi, zi⟩) ⟨seen, 0, 0⟩ (hnd _)
        generalize (set.at ⟨xi, yi, zi⟩).foldl (countTri m) ⟨seen, 0, 0⟩ = c at c1 c2 c3 ⊢
        dsimp only at c1 c2 c3
        rw [crossings_eq m.Triangles T (crossing m) 1 xi _ seen (hnd _) (hT xi)
          (fun p h => htri p xi h) hseen] at c2
        rw [crossings_eq m.Triangles T (crossing m) (-1) xi _ seen (hnd _) (hT xi)
          (fun p h => htri p xi h) hseen] at c3
        have hin' : (if c.inCount > c.outCount then true else if c.inCount < c.outCount then false
            else inside) = true ↔ Inside m.Triangles T (crossing m) (xi + 1) := by
          rw [inside_succ]
          unfold Enters Leaves
          by_cases h1 : c.inCount > c.outCount
          · rw [if_pos h1]
            constructor
            · intro _; left; omega
            · intro _; rfl
          · rw [if_neg h1]
            by_cases h2 : c.inCount < c.outCount
            · rw [if_pos h2]
              constructor
              · intro h; cases h
              · rintro (h | ⟨h, _⟩)
                · omega
                · omega
            · rw [if_neg h2, hin]
              constructor
              · intro h; right; exact ⟨by omega, h⟩
              · rintro (h | ⟨_, h⟩)
                · omega
                · exact h
        have hseen' : ∀ p, p ∈ c.seen ↔ ∃ x' < xi + 1, T p x' := by
          intro p
          rw [c1, hseen, hT]
          constructor
          · rintro (⟨x', h1, h2⟩ | h)
            · exact ⟨x', by omega, h2⟩
            · exact ⟨xi, by omega, h⟩
          · rintro ⟨x', h1, h2⟩
            by_cases hx : x' = xi
            · subst hx; exact Or.inr h2
            · exact Or.inl ⟨x', by omega, h2⟩
        have h0 := key True _ (by
          constructor
          · intro _; left
            obtain ⟨p, hp⟩ := List.exists_mem_of_length_pos hne
            exact ⟨p, (hT xi p).mp hp⟩
          · intro _; trivial) (ih (xi + 1) _ c.seen hin' hseen')
        rw [List.mem_cons, ← h0]
        simp only [true_and]
      · rw [if_neg hne]
        have hemp : ∀ p, ¬ T p xi := by
          intro p hp
          exact hne (List.length_pos_of_mem ((hT xi p).mpr hp))
        have hcr : ∀ d, crossings m.Triangles T (crossing m) d xi = 0 := by
          intro d
          unfold crossings
          rw [List.length_eq_zero_iff, List.filter_eq_nil_iff]
          intro p _
          rw [decide_eq_true_eq]
          rintro ⟨⟨h, _⟩, _⟩
          exact hemp p h
        have hin' : inside = true ↔ Inside m.Triangles T (crossing m) (xi + 1) := by
          rw [inside_succ, hin]
          unfold Enters Leaves
          rw [hcr, hcr]
          constructor
          · intro h; right; exact ⟨by omega, h⟩
          · rintro (h | ⟨_, h⟩)
            · omega
            · exact h
        have hseen' : ∀ p, p ∈ seen ↔ ∃ x' < xi + 1, T p x' := by
          intro p
          rw [hseen]
          constructor
          · rintro ⟨x', h1, h2⟩
            exact ⟨x', by omega, h2⟩
          · rintro ⟨x', h1, h2⟩
            by_cases hx : x' = xi
            · subst hx; exact absurd h2 (hemp p)
            · exact ⟨x', by omega, h2⟩
        have h0 := key (inside = true ∧ xi ≥ 0) _ (by
          rw [hin]
          constructor
          · rintro ⟨h1, h2⟩; right; exact ⟨h2, h1⟩
          · rintro (⟨p, h⟩ | ⟨h1, h2⟩)
            · exact absurd h (hemp p)
            · exact ⟨h2, h1⟩) (ih (xi + 1) inside seen hin' hseen')
        rw [← h0]
        by_cases hii : inside = true ∧ xi ≥ 0
        · rw [if_pos hii, List.mem_cons]
          simp only [hii.1, hii.2, true_and]
        · rw [if_neg hii]
          constructor
          · intro h; exact Or.inr h
          · rintro (⟨h, _⟩ | h)
            · exact absurd h hii
            · exact h

/-- The voxels set by the row goroutines of a slice are exactly the filled cells. -/
theorem sliceRows_mem {F : Type} [GoFloat F] (b : BinVOX F) (m : Mesh F) (zi : Int) (k : Key) :
    (∃ r ∈ sliceRows b m zi, k ∈ r) ↔ k.Z = zi ∧ Filled b m zi k.Y k.X := by
  have hs := sliceShell_spec b m zi
  unfold sliceRows
  generalize sliceShell b m zi = st at hs
  have hrow : ∀ (y : Int) (v : Int × Int), GoMap.get st.2 y = some v →
      (k ∈ rowEvents m b.NX zi st.1 (y, v) ↔ k.Y = y ∧ k.Z = zi ∧ Filled b m zi y k.X) := by
    intro y v hv
    obtain ⟨⟨p1, h1⟩, ⟨p2, h2⟩, h3⟩ := hs.some y v hv
    unfold rowEvents
    have hf := fillRow_mem m b.NX y zi st.1 (Touches b m zi y)
      (fun x p => by rw [hs.mem]; simp) hs.nodup (fun p x h => h.1)
      (v.2 - v.1 + 1).toNat v.1 false [] (by
        constructor
        · intro h; cases h
        · rintro ⟨x0, hx0, he, _⟩
          exfalso
          unfold Enters at he
          have hpos : 0 < crossings m.Triangles (Touches b m zi y) (crossing m) 1 x0 := by omega
          unfold crossings at hpos
          obtain ⟨p, hp⟩ := List.exists_mem_of_length_pos hpos
          rw [List.mem_filter, decide_eq_true_eq] at hp
          have := h3 p x0 hp.2.1.1
          omega) (by
        intro p
        constructor
        · intro h; cases h
        · rintro ⟨x', hx', hT⟩
          have := h3 p x' hT
          omega) k
    rw [hf]
    unfold Filled
    have hle : v.1 ≤ v.2 := (h3 p1 v.1 h1).2
    constructor
    · rintro ⟨a, b', c, d, e, f⟩
      refine ⟨a, b', e, ?_⟩
      rcases f with f | ⟨f1, f2⟩
      · exact Or.inl f
      · exact Or.inr ⟨f1, ⟨v.2, p2, by omega, h2⟩, f2⟩
    · rintro ⟨a, b', e, f⟩
      have hx : v.1 ≤ k.X ∧ k.X ≤ v.2 := by
        rcases f with ⟨p, f⟩ | ⟨_, ⟨x', p, f1, f2⟩, x0, g1, g2, _⟩
        · exact h3 p _ f
        · have a1 := h3 p x' f2
          unfold Enters at g2
          have hpos : 0 < crossings m.Triangles (Touches b m zi y) (crossing m) 1 x0 := by omega
          unfold crossings at hpos
          obtain ⟨p', hp⟩ := List.exists_mem_of_length_pos hpos
          rw [List.mem_filter, decide_eq_true_eq] at hp
          have a2 := h3 p' x0 hp.2.1.1
          omega
      refine ⟨a, b', hx.1, by omega, e, ?_⟩
      rcases f with f | ⟨f1, _, f2⟩
      · exact Or.inl f
      · exact Or.inr ⟨f1, f2⟩
  constructor
  · rintro ⟨r, hr, hk⟩
    obtain ⟨⟨y, v⟩, hyv, rfl⟩ := List.mem_map.mp hr
    have hg := (GoMap.get_eq_some_iff_mem hs.wf y v).mpr hyv
    obtain ⟨h1, h2, h3⟩ := (hrow y v hg).mp hk
    exact ⟨h2, h1 ▸ h3⟩
  · rintro ⟨h1, h2⟩
    cases hg : GoMap.get st.2 k.Y with
    | none =>
      exfalso
      have hn := hs.none k.Y hg
      rcases h2.2 with ⟨p, h⟩ | ⟨_, ⟨x', p, _, h⟩, _⟩
      · exact hn _ _ h
      · exact hn _ _ h
    | some v =>
      refine ⟨rowEvents m b.NX zi st.1 (k.Y, v),
        List.mem_map_of_mem ((GoMap.get_eq_some_iff_mem hs.wf k.Y v).mp hg), ?_⟩
      exact (hrow k.Y v hg).mpr ⟨rfl, h1, h2⟩

end StlDice
