import Verif.Props.TriangleLess
import Verif.Model.Float64

/-! # C52 in float64 arithmetic -/

namespace StlDice
namespace Manifold
open Spec GoFloat BinVOX

/-- The exact corners of a triangle with float64 corners. -/
def ratTri (t : Tri (Vec F64)) : Tri (Vec ℚ) :=
  ⟨⟨t.V1.X.val, t.V1.Y.val, t.V1.Z.val⟩, ⟨t.V2.X.val, t.V2.Y.val, t.V2.Z.val⟩, ⟨t.V3.X.val, t.V3.Y.val, t.V3.Z.val⟩⟩

theorem f64_ext {a b : F64} (h : a.val = b.val) : a = b := by
  cases a; cases b; cases h; rfl

theorem ratTri_injective {s t : Tri (Vec F64)} (h : ratTri s = ratTri t) : s = t := by
  obtain ⟨⟨a1, a2, a3⟩, ⟨b1, b2, b3⟩, ⟨c1, c2, c3⟩⟩ := s
  obtain ⟨⟨d1, d2, d3⟩, ⟨e1, e2, e3⟩, ⟨f1, f2, f3⟩⟩ := t
  simp only [ratTri, Tri.mk.injEq, Vec.mk.injEq] at h
  obtain ⟨⟨h1, h2, h3⟩, ⟨h4, h5, h6⟩, ⟨h7, h8, h9⟩⟩ := h
  rw [f64_ext h1, f64_ext h2, f64_ext h3, f64_ext h4, f64_ext h5, f64_ext h6, f64_ext h7, f64_ext h8, f64_ext h9]

/-- `TriangleLess` compares float64 triangles like their exact corners. -/
theorem triangleLess_f64 (s t : Tri (Vec F64)) : triangleLess s t = triangleLess (ratTri s) (ratTri t) := rfl

/-- **C52.** The comparison of finite float64 numbers is a strict weak order. -/
theorem f64_strictWeak : StrictWeak (fun _ : F64 => True) (lt : F64 → F64 → Bool) := by
  refine ⟨fun a _ => rat_strictWeak.irrefl a.val trivial, ?_, ?_⟩
  · intro a b c _ _ _; exact rat_strictWeak.trans a.val b.val c.val trivial trivial trivial
  · intro a b c _ _ _; exact rat_strictWeak.incomp a.val b.val c.val trivial trivial trivial

/-- **C52.** On triangles with finite float64 corners `TriangleLess` is a strict weak order. -/
theorem triangleLess_strictWeak_f64 :
    StrictWeak (fun _ : Tri (Vec F64) => True) (triangleLess : Tri (Vec F64) → Tri (Vec F64) → Bool) := by
  have h := triangleLess_strictWeak f64_strictWeak
  have ok : ∀ t : Tri (Vec F64), ∀ x ∈ sortKey t, True := fun _ _ _ => trivial
  exact ⟨fun a _ => h.irrefl a (ok a), fun a b c _ _ _ => h.trans a b c (ok a) (ok b) (ok c),
    fun a b c _ _ _ => h.incomp a b c (ok a) (ok b) (ok c)⟩

/-- **C52.** Two sorted rearrangements of the same triangles with finite float64 corners have the same triangle at every
    place. -/
theorem sorted_unique_f64 {ts1 ts2 o1 o2 : List (Tri (Vec F64))} (hp : ts1.Perm ts2)
    (h1 : SortedBy triangleLess ts1 o1) (h2 : SortedBy triangleLess ts2 o2) : o1 = o2 := by
  apply List.Perm.eq_of_pairwise _ h1.2 h2.2 ((h1.1.trans hp).trans h2.1.symm)
  intro a b _ _ hab hba
  exact ratTri_injective (triangleLess_total hba hab)

/-- **C52.** In float64 arithmetic too: whatever the order in which the maps are visited and whatever sorting
    algorithm is used, the mesh of a model sorted with `TriangleLess` is one and the same list. -/
theorem manifold_sorted_deterministic_f64 {b : BinVOX F64} {t1 t2 o1 o2 : List (Tri (Vec F64))}
    (h1 : ManifoldRun b t1) (h2 : ManifoldRun b t2)
    (s1 : SortedBy triangleLess t1 o1) (s2 : SortedBy triangleLess t2 o2) : o1 = o2 :=
  sorted_unique_f64 (manifold_runs_perm h1 h2) s1 s2

/-- Such an order exists for every list. -/
theorem sorted_exists_f64 (ts : List (Tri (Vec F64))) : ∃ out, SortedBy triangleLess ts out := by
  refine ⟨ts.mergeSort (fun a b => !triangleLess b a), List.mergeSort_perm _ _, ?_⟩
  have := List.pairwise_mergeSort (le := fun a b : Tri (Vec F64) => !triangleLess b a)
    (by
      intro a b c hab hbc
      have ab : ¬ sortKey (ratTri b) < sortKey (ratTri a) := fun h => by
        rw [triangleLess_f64, (triangleLess_lex _ _).mpr h] at hab; cases hab
      have bc : ¬ sortKey (ratTri c) < sortKey (ratTri b) := fun h => by
        rw [triangleLess_f64, (triangleLess_lex _ _).mpr h] at hbc; cases hbc
      cases hx : triangleLess c a
      · rfl
      · have := (triangleLess_lex (ratTri c) (ratTri a)).mp hx
        exact absurd this (not_lt.mpr ((not_lt.mp ab).trans (not_lt.mp bc))))
    (by
      intro a b
      cases hx : triangleLess b a
      · rfl
      · cases hy : triangleLess a b
        · rfl
        · exact absurd ((triangleLess_lex (ratTri a) (ratTri b)).mp hy)
            (not_lt.mpr ((triangleLess_lex (ratTri b) (ratTri a)).mp hx).le))
    ts
  exact this.imp (by intro a b h; simpa using h)

/-- A voxel of a float64 model: its mesh visited in two ways, sorted. -/
def oneVoxel : BinVOX F64 :=
  { NX := 1, NY := 1, NZ := 1, TX := F64.of (1 / 10), TY := F64.of 0, TZ := F64.of 0, Scale := F64.of 1,
    WhiteVoxels := some [(⟨0, 0, 0⟩, ())], ColorVoxels := none }

example : ∃ t o1 o2, ManifoldRun oneVoxel t ∧ SortedBy triangleLess t o1 ∧ SortedBy triangleLess t.reverse o2 ∧
    o1 = o2 := by
  obtain ⟨t, ht⟩ := manifold_run_exists oneVoxel
  obtain ⟨o1, h1⟩ := sorted_exists_f64 t
  obtain ⟨o2, h2⟩ := sorted_exists_f64 t.reverse
  exact ⟨t, o1, o2, ht, h1, h2, sorted_unique_f64 t.reverse_perm.symm h1 h2⟩

example : ∃ t o, ManifoldRun oneVoxel t ∧ SortedBy triangleLess t o := by
  obtain ⟨t, ht⟩ := manifold_run_exists oneVoxel
  exact ⟨t, (sorted_exists_f64 t).choose, ht, (sorted_exists_f64 t).choose_spec⟩

end Manifold
end StlDice
