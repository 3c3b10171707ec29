import Verif.Lemmas.ShellAdd

/-! What the main loop of `Add` leaves in the shell. -/

namespace StlDice
open Spec

theorem nbrSpec_or_of_sub {S U : Key → Prop} (hsub : ∀ k, S k → U k) {k : Key}
    (h : Exposed U k) : Exposed S k := by
  obtain ⟨x, y, z, h1, h2⟩ := h
  exact ⟨x, y, z, h1, fun hs => h2 (hsub _ hs)⟩

theorem exists_nbrSpec (S : Key → Prop) (k : Key) : ∃ N, NbrSpec S k N := by
  classical
  let ks : List Key := ((List.range 27).filter (fun j => decide (S (nbr k j)))).map (nbr k)
  let m : GoMap Key Unit := ks.map (fun k => (k, ()))
  have hm : ∀ t, m.has t = true ↔ t ∈ ks := by
    intro t
    rw [← GoMap.mem_keys_iff]
    simp [m, GoMap.keys, Function.comp_def]
  refine ⟨(findNeighbors m ([] : GoMap Key Unit) k).1, ?_⟩
  rw [nbrSpec_iff]
  intro j
  rw [findNeighbors_result]
  simp only [hm, GoMap.has_nil, Bool.false_eq_true, or_false]
  constructor
  · rintro ⟨a, b, c⟩
    refine ⟨a, b, ?_⟩
    obtain ⟨i, hi, he⟩ := List.mem_map.mp c
    rw [List.mem_filter, decide_eq_true_eq] at hi
    rw [← he]; exact hi.2
  · rintro ⟨a, b, c⟩
    refine ⟨a, b, List.mem_map.mpr ⟨j, ?_, rfl⟩⟩
    rw [List.mem_filter, decide_eq_true_eq]
    exact ⟨List.mem_range.mpr a, c⟩

section
variable {S T : Key → Prop} {voxels : List VShVoxel} {lookup : GoMap Key Unit} {order : List Key}

theorem orAll_nbrSpec (hS : IsShell S voxels) (hord : ∀ k, k ∈ order ↔ T k) {v : VShVoxel}
    (hv : v ∈ voxels) : NbrSpec (KUnion S T) v.key (orAll order v).N := by
  have hN := ((hS.2 v).mp hv).2.2
  rw [nbrSpec_iff] at hN ⊢
  intro j
  rw [orAll_bit, hN]
  constructor
  · rintro (⟨a, b, c⟩ | ⟨k, hk, a, b, c⟩)
    · exact ⟨a, b, Or.inl c⟩
    · exact ⟨a, b, Or.inr (by rw [c]; exact (hord k).mp hk)⟩
  · rintro ⟨a, b, c | c⟩
    · exact Or.inl ⟨a, b, c⟩
    · exact Or.inr ⟨_, (hord _).mpr c, a, b, rfl⟩

/-- A new voxel sees exactly the union. -/
theorem fn_nbrSpec (hS : IsShell S voxels) (hlk : ∀ k, lookup.has k = true ↔ T k)
    (hdis : ∀ k, T k → ¬ S k) {k : Key} (hk : T k) :
    NbrSpec (KUnion S T) k (findNeighbors lookup (oldMap voxels) k).1 := by
  rw [nbrSpec_iff]
  intro j
  rw [findNeighbors_result]
  constructor
  · rintro ⟨a, b, c | c⟩
    · exact ⟨a, b, Or.inr ((hlk _).mp c)⟩
    · obtain ⟨v, hv, hvk⟩ := List.mem_map.mp ((oldMap_has _ _).mp c)
      refine ⟨a, b, Or.inl ?_⟩
      rw [← hvk]; exact ((hS.2 v).mp hv).1
  · rintro ⟨a, b, c | c⟩
    · refine ⟨a, b, Or.inr ?_⟩
      rw [oldMap_has]
      by_cases he : Exposed S (nbr k j)
      · -- the voxel with the exact bit map is in the shell
        obtain ⟨N, hN⟩ : ∃ N, NbrSpec S (nbr k j) N := exists_nbrSpec _ _
        have : (⟨(nbr k j).X, (nbr k j).Y, (nbr k j).Z, N⟩ : VShVoxel) ∈ voxels :=
          (hS.2 _).mpr ⟨c, he, hN⟩
        exact List.mem_map.mpr ⟨_, this, rfl⟩
      · exfalso
        apply hdis k hk
        rw [exposed_iff] at he
        obtain ⟨g1, g2, g3⟩ := nbr_symm a b (rfl : nbr k j = nbr k j)
        by_contra hs
        exact he ⟨_, g1, g2, by rw [g3]; exact hs⟩
    · exact ⟨a, b, Or.inl ((hlk _).mpr c)⟩

theorem mem_news (hS : IsShell S voxels) (hlk : ∀ k, lookup.has k = true ↔ T k)
    (hord : ∀ k, k ∈ order ↔ T k) (hdis : ∀ k, T k → ¬ S k) (v : VShVoxel) :
    v ∈ news lookup (oldMap voxels) order ↔
      T v.key ∧ Exposed (KUnion S T) v.key ∧ NbrSpec (KUnion S T) v.key v.N := by
  unfold news
  rw [List.mem_map]
  constructor
  · rintro ⟨k, hk, rfl⟩
    rw [List.mem_filter, decide_eq_true_eq, hord] at hk
    have hN := fn_nbrSpec hS hlk hdis hk.1
    generalize (findNeighbors lookup (oldMap voxels) k).1 = N at hN hk
    refine ⟨hk.1, ?_, hN⟩
    by_contra he
    exact hk.2 ((nbrSpec_all hN).mpr he)
  · rintro ⟨h1, h2, h3⟩
    have hN := fn_nbrSpec hS hlk hdis h1
    refine ⟨v.key, ?_, ?_⟩
    · rw [List.mem_filter, decide_eq_true_eq, hord]
      exact ⟨h1, fun h => (nbrSpec_all hN).mp h h2⟩
    · obtain ⟨x, y, z, n⟩ := v
      rw [nbrSpec_unique hN h3]
      rfl

theorem news_keys (old : GoMap Key Nat) (done : List Key) :
    (news lookup old done).map VShVoxel.key =
      done.filter (fun k => decide ((findNeighbors lookup old k).1 ≠ allNeighbors)) := by
  unfold news
  rw [List.map_map]
  conv_rhs => rw [← List.map_id (List.filter _ done)]
  apply List.map_congr_left
  intro k _
  rfl

/-- The result of the loop, for any capacity: the old voxels updated by some prefix `d` of the new
    ones (all of them when the capacity suffices), without those that became enclosed, then the new
    shell voxels. -/
theorem addVoxels_result (cap : Nat) (hS : IsShell S voxels) (hlk : ∀ k, lookup.has k = true ↔ T k)
    (hord : ∀ k, k ∈ order ↔ T k) (hdis : ∀ k, T k → ¬ S k) :
    ∃ d, d <+: order ∧ (voxels.length + order.length ≤ cap → d = order) ∧
      (∀ v, v ∈ addVoxels cap lookup order voxels ↔
        (∃ w ∈ voxels, v = orAll d w ∧ Exposed (KUnion S T) w.key) ∨
        (T v.key ∧ Exposed (KUnion S T) v.key ∧ NbrSpec (KUnion S T) v.key v.N)) ∧
      (order.Nodup → ((addVoxels cap lookup order voxels).map VShVoxel.key).Nodup) := by
  have hexp : ∀ v ∈ voxels, v.N ≠ allNeighbors := by
    intro v hv he
    obtain ⟨_, h2, h3⟩ := (hS.2 v).mp hv
    exact (nbrSpec_all h3).mp he h2
  have hdk : ∀ t ∈ voxels.map VShVoxel.key, lookup.has t = false := by
    intro t ht
    obtain ⟨v, hv, rfl⟩ := List.mem_map.mp ht
    cases h : lookup.has v.key
    · rfl
    · exact absurd ((hS.2 v).mp hv).1 (hdis _ ((hlk _).mp h))
  have hinv := loop_inv cap voxels hS.1 hexp lookup hdk order
  unfold addVoxels
  dsimp only
  generalize order.foldl (addStep cap lookup (oldMap voxels)) ⟨voxels, voxels, []⟩ = s at hinv
  obtain ⟨ha, ⟨d, hd, hcur, hcap⟩, hrm⟩ := hinv
  have hrm' : ∀ c, s.toRemove.has c = true ↔ c ∈ voxels.map VShVoxel.key ∧ ¬ Exposed (KUnion S T) c := by
    intro c
    rw [hrm, ha]
    constructor
    · rintro ⟨v, hv, rfl, hN⟩
      obtain ⟨w, hw, rfl⟩ := List.mem_map.mp hv
      rw [orAll_key]
      exact ⟨List.mem_map_of_mem hw, (nbrSpec_all (orAll_nbrSpec hS hord hw)).mp hN⟩
    · rintro ⟨hc, he⟩
      obtain ⟨w, hw, rfl⟩ := List.mem_map.mp hc
      exact ⟨orAll order w, List.mem_map_of_mem hw, orAll_key _ _,
        (nbrSpec_all (orAll_nbrSpec hS hord hw)).mpr he⟩
  have hfilt : (if s.toRemove.length > 0 then s.cur.filter (fun v => !s.toRemove.has v.key) else s.cur) =
      s.cur.filter (fun v => !s.toRemove.has v.key) := by
    split
    · rfl
    · rename_i hl
      have : s.toRemove = [] := List.eq_nil_of_length_eq_zero (by omega)
      rw [this]
      simp
  rw [hfilt, hcur]
  refine ⟨d, hd, ?_, ?_, ?_⟩
  · intro hle
    apply hcap
    rw [hcur, List.length_append, List.length_map]
    have : (news lookup (oldMap voxels) order).length ≤ order.length := by
      unfold news; rw [List.length_map]; exact List.length_filter_le _ _
    omega
  · intro v
    rw [List.mem_filter, List.mem_append, mem_news hS hlk hord hdis]
    have hneg : (!s.toRemove.has v.key) = true ↔ ¬ (v.key ∈ voxels.map VShVoxel.key ∧ ¬ Exposed (KUnion S T) v.key) := by
      rw [← hrm']; simp
    rw [hneg]
    constructor
    · rintro ⟨h | h, hn⟩
      · obtain ⟨w, hw, rfl⟩ := List.mem_map.mp h
        rw [orAll_key] at hn
        refine Or.inl ⟨w, hw, rfl, ?_⟩
        by_contra he
        exact hn ⟨List.mem_map_of_mem hw, he⟩
      · exact Or.inr h
    · rintro (⟨w, hw, rfl, he⟩ | h)
      · refine ⟨Or.inl (List.mem_map_of_mem hw), ?_⟩
        rw [orAll_key]
        exact fun h => h.2 he
      · exact ⟨Or.inr h, fun hh => hh.2 h.2.1⟩
  · intro hnd
    apply List.Nodup.sublist (l₂ := (voxels.map (orAll d) ++ news lookup (oldMap voxels) order).map VShVoxel.key)
    · exact List.Sublist.map _ List.filter_sublist
    · rw [List.map_append, keys_map_orAll, news_keys]
      apply List.Nodup.append hS.1 (hnd.filter _)
      intro k hk hk2
      rw [List.mem_filter, hord] at hk2
      obtain ⟨v, hv, rfl⟩ := List.mem_map.mp hk
      exact hdis _ hk2.1 ((hS.2 v).mp hv).1

/-- With enough capacity, or no old voxels, the result is exactly the shell of the union. -/
theorem addVoxels_exact (cap : Nat) (hS : IsShell S voxels) (hlk : ∀ k, lookup.has k = true ↔ T k)
    (hord : ∀ k, k ∈ order ↔ T k) (hnd : order.Nodup) (hdis : ∀ k, T k → ¬ S k)
    (hcap : voxels = [] ∨ voxels.length + order.length ≤ cap) :
    IsShell (KUnion S T) (addVoxels cap lookup order voxels) := by
  obtain ⟨d, _, hd, hm, hn⟩ := addVoxels_result cap hS hlk hord hdis
  refine ⟨hn hnd, ?_⟩
  intro v
  rw [hm]
  constructor
  · rintro (⟨w, hw, rfl, he⟩ | ⟨h1, h2, h3⟩)
    · have hdo : d = order := by
        rcases hcap with h | h
        · rw [h] at hw; cases hw
        · exact hd h
      subst hdo
      rw [orAll_key]
      exact ⟨Or.inl ((hS.2 w).mp hw).1, he, orAll_nbrSpec hS hord hw⟩
    · exact ⟨Or.inr h1, h2, h3⟩
  · rintro ⟨h1 | h1, h2, h3⟩
    · left
      have he : Exposed S v.key := nbrSpec_or_of_sub (fun k h => Or.inl h) h2
      obtain ⟨N, hN⟩ : ∃ N, NbrSpec S v.key N := exists_nbrSpec _ _
      have hw : (⟨v.X, v.Y, v.Z, N⟩ : VShVoxel) ∈ voxels := (hS.2 _).mpr ⟨h1, he, hN⟩
      refine ⟨_, hw, ?_, h2⟩
      have hdo : d = order := by
        rcases hcap with h | h
        · rw [h] at hw; cases hw
        · exact hd h
      subst hdo
      have hu := orAll_nbrSpec hS hord hw
      have hk := orAll_key d ⟨v.X, v.Y, v.Z, N⟩
      have hNe := nbrSpec_unique hu h3
      generalize orAll d ⟨v.X, v.Y, v.Z, N⟩ = o at hk hNe
      obtain ⟨ox, oy, oz, on⟩ := o
      obtain ⟨x, y, z, n⟩ := v
      simp only [VShVoxel.key, Key.mk.injEq] at hk
      simp only at hNe
      obtain ⟨rfl, rfl, rfl⟩ := hk
      rw [hNe]
    · exact Or.inr ⟨h1, h2, h3⟩

end

end StlDice
