import Verif.Props.Shell

/-! # C16, C17: histories of additions to a shell, whatever the slices' capacities -/

namespace StlDice
open Spec
variable {F : Type}

/-- A shell with possibly out-of-date maps, none of which claims to be complete. -/
structure Loose (S : Key → Prop) (vs : List VShVoxel) : Prop extends HoldsShell S vs where
  notAll : ∀ v ∈ vs, v.N ≠ allNeighbors

theorem Loose.bits' {S : Key → Prop} {vs : List VShVoxel} (h : Loose S vs) {v : VShVoxel} (hv : v ∈ vs)
    {j : Nat} (hj : v.N.getLsbD j = true) : j < 27 ∧ j ≠ 13 ∧ S (nbr v.key j) := by
  obtain ⟨N, hN⟩ := exists_nbrSpec S v.key
  have := (hN j).mpr (h.bits v hv j hj)
  exact ((nbrSpec_iff _ _ _).mp hN j).mp this

theorem bits_of {S : Key → Prop} {k : Key} {j : Nat} (h : j < 27 ∧ j ≠ 13 ∧ S (nbr k j)) :
    ∃ x y z : Int, IsOffset x y z ∧ (j : Int) = 9 * (x + 1) + 3 * (y + 1) + (z + 1) ∧ S (k.shift x y z) := by
  obtain ⟨N, hN⟩ := exists_nbrSpec S k
  exact (hN j).mp (((nbrSpec_iff _ _ _).mp hN j).mpr h)

theorem loose_of_shell {S : Key → Prop} {vs : List VShVoxel} (h : IsShell S vs) : Loose S vs := by
  refine ⟨⟨h.1, fun v hv => ((h.2 v).mp hv).1, ?_, ?_⟩, ?_⟩
  · intro k hk he
    obtain ⟨N, hN⟩ := exists_nbrSpec S k
    exact List.mem_map.mpr ⟨⟨k.X, k.Y, k.Z, N⟩, (h.2 _).mpr ⟨hk, he, hN⟩, rfl⟩
  · intro v hv i hi
    exact (((h.2 v).mp hv).2.2 i).mp hi
  · intro v hv he
    obtain ⟨_, h2, h3⟩ := (h.2 v).mp hv
    exact (nbrSpec_all h3).mp he h2

/-- A map whose bits are neighbours in `S` is complete only if the voxel is enclosed. -/
theorem not_exposed_of_all {S : Key → Prop} {k : Key} {N : NeighborBitMap}
    (h : ∀ j, N.getLsbD j = true → j < 27 ∧ j ≠ 13 ∧ S (nbr k j)) (ha : N = allNeighbors) : ¬ Exposed S k := by
  obtain ⟨N', hN'⟩ := exists_nbrSpec S k
  apply (nbrSpec_all hN').mp
  apply BitVec.eq_of_getLsbD_eq
  intro j _
  rw [Bool.eq_iff_iff, (nbrSpec_iff _ _ _).mp hN' j]
  constructor
  · rintro ⟨a, b, _⟩; rw [all_bit']; simp [a, b]
  · intro hj; apply h; rw [ha]; exact hj

section
variable {S T : Key → Prop} {voxels : List VShVoxel} {lookup : GoMap Key Unit} {order : List Key}

theorem loose_fn (hS : Loose S voxels) (hlk : ∀ k, lookup.has k = true ↔ T k)
    (hdis : ∀ k, T k → ¬ S k) {k : Key} (hk : T k) :
    NbrSpec (KUnion S T) k (findNeighbors lookup (oldMap voxels) k).1 := by
  rw [nbrSpec_iff]
  intro j
  rw [findNeighbors_result]
  constructor
  · rintro ⟨a, b, c | c⟩
    · exact ⟨a, b, Or.inr ((hlk _).mp c)⟩
    · obtain ⟨v, hv, hvk⟩ := List.mem_map.mp ((oldMap_has _ _).mp c)
      refine ⟨a, b, Or.inl ?_⟩
      rw [← hvk]; exact hS.inside v hv
  · rintro ⟨a, b, c | c⟩
    · refine ⟨a, b, Or.inr ?_⟩
      rw [oldMap_has]
      by_cases he : Exposed S (nbr k j)
      · exact hS.covers _ c he
      · exfalso
        apply hdis k hk
        rw [exposed_iff] at he
        obtain ⟨g1, g2, g3⟩ := nbr_symm a b (rfl : nbr k j = nbr k j)
        by_contra hs
        exact he ⟨_, g1, g2, by rw [g3]; exact hs⟩
    · exact ⟨a, b, Or.inl ((hlk _).mpr c)⟩

theorem loose_orAll (hS : Loose S voxels) (hord : ∀ k, k ∈ order → T k) {v : VShVoxel}
    (hv : v ∈ voxels) {j : Nat} (hj : (orAll order v).N.getLsbD j = true) :
    j < 27 ∧ j ≠ 13 ∧ KUnion S T (nbr v.key j) := by
  rw [orAll_bit] at hj
  rcases hj with hj | ⟨k, hk, a, b, c⟩
  · obtain ⟨a, b, c⟩ := hS.bits' hv hj
    exact ⟨a, b, Or.inl c⟩
  · exact ⟨a, b, Or.inr (by rw [c]; exact hord k hk)⟩

theorem orAll_mono {d : List Key} (h : d <+: order) (v : VShVoxel) {j : Nat}
    (hj : (orAll d v).N.getLsbD j = true) : (orAll order v).N.getLsbD j = true := by
  rw [orAll_bit] at hj ⊢
  rcases hj with hj | ⟨k, hk, hh⟩
  · exact Or.inl hj
  · exact Or.inr ⟨k, h.subset hk, hh⟩

theorem loose_add (cap : Nat) (hS : Loose S voxels) (hlk : ∀ k, lookup.has k = true ↔ T k)
    (hord : ∀ k, k ∈ order ↔ T k) (hnd : order.Nodup) (hdis : ∀ k, T k → ¬ S k) :
    Loose (KUnion S T) (addVoxels cap lookup order voxels) := by
  have hdk : ∀ t ∈ voxels.map VShVoxel.key, lookup.has t = false := by
    intro t ht
    obtain ⟨v, hv, rfl⟩ := List.mem_map.mp ht
    cases h : lookup.has v.key
    · rfl
    · exact absurd (hS.inside v hv) (hdis _ ((hlk _).mp h))
  have hinv := loop_inv cap voxels hS.nodup hS.notAll lookup hdk order
  unfold addVoxels
  dsimp only
  generalize order.foldl (addStep cap lookup (oldMap voxels)) ⟨voxels, voxels, []⟩ = s at hinv
  obtain ⟨ha, ⟨d, hd, hcur, hcap⟩, hrm⟩ := hinv
  have hfilt : (if s.toRemove.length > 0 then s.cur.filter (fun v => !s.toRemove.has v.key) else s.cur) =
      s.cur.filter (fun v => !s.toRemove.has v.key) := by
    split
    · rfl
    · rename_i hl
      have : s.toRemove = [] := List.eq_nil_of_length_eq_zero (by omega)
      rw [this]
      simp
  rw [hfilt, hcur]
  have hmem : ∀ v, v ∈ (voxels.map (orAll d) ++ news lookup (oldMap voxels) order).filter
      (fun v => !s.toRemove.has v.key) → (∃ w ∈ voxels, v = orAll d w ∧ s.toRemove.has w.key = false) ∨
      (T v.key ∧ NbrSpec (KUnion S T) v.key v.N ∧ v.N ≠ allNeighbors) := by
    intro v hv
    rw [List.mem_filter, List.mem_append] at hv
    rcases hv with ⟨h | h, hr⟩
    · obtain ⟨w, hw, rfl⟩ := List.mem_map.mp h
      rw [orAll_key] at hr
      exact Or.inl ⟨w, hw, rfl, by simpa using hr⟩
    · unfold news at h
      obtain ⟨k, hk, rfl⟩ := List.mem_map.mp h
      rw [List.mem_filter, decide_eq_true_eq, hord] at hk
      have hN := loose_fn hS hlk hdis hk.1
      generalize (findNeighbors lookup (oldMap voxels) k).1 = N at hN hk
      exact Or.inr ⟨hk.1, hN, hk.2⟩
  refine ⟨⟨?_, ?_, ?_, ?_⟩, ?_⟩
  · apply List.Nodup.sublist (l₂ := (voxels.map (orAll d) ++ news lookup (oldMap voxels) order).map VShVoxel.key)
    · exact List.Sublist.map _ List.filter_sublist
    · rw [List.map_append, keys_map_orAll, news_keys]
      apply List.Nodup.append hS.nodup (hnd.filter _)
      intro k hk hk2
      rw [List.mem_filter, hord] at hk2
      obtain ⟨v, hv, rfl⟩ := List.mem_map.mp hk
      exact hdis _ hk2.1 (hS.inside v hv)
  · intro v hv
    rcases hmem v hv with ⟨w, hw, rfl, _⟩ | ⟨h, _⟩
    · rw [orAll_key]; exact Or.inl (hS.inside w hw)
    · exact Or.inr h
  · intro k hk he
    have hkeep : s.toRemove.has k = false := by
      cases h : s.toRemove.has k with
      | false => rfl
      | true =>
        obtain ⟨v, hv, hvk, hN⟩ := (hrm k).mp h
        rw [ha] at hv
        obtain ⟨w, hw, rfl⟩ := List.mem_map.mp hv
        rw [orAll_key] at hvk
        subst hvk
        exact absurd he (not_exposed_of_all (fun j hj => loose_orAll hS (fun k h => (hord k).mp h) hw hj) hN)
    rcases hk with hk | hk
    · have hx : Exposed S k := nbrSpec_or_of_sub (fun k h => Or.inl h) he
      obtain ⟨w, hw, hwk⟩ := List.mem_map.mp (hS.covers k hk hx)
      refine List.mem_map.mpr ⟨orAll d w, ?_, by rw [orAll_key]; exact hwk⟩
      rw [List.mem_filter, List.mem_append]
      exact ⟨Or.inl (List.mem_map_of_mem hw), by rw [orAll_key, hwk, hkeep]; rfl⟩
    · have hN := loose_fn hS hlk hdis hk
      refine List.mem_map.mpr ⟨⟨k.X, k.Y, k.Z, (findNeighbors lookup (oldMap voxels) k).1⟩, ?_, rfl⟩
      rw [List.mem_filter, List.mem_append]
      refine ⟨Or.inr ?_, ?_⟩
      · unfold news
        refine List.mem_map.mpr ⟨k, ?_, rfl⟩
        rw [List.mem_filter, decide_eq_true_eq, hord]
        exact ⟨hk, fun h => (nbrSpec_all hN).mp h he⟩
      · have : (⟨k.X, k.Y, k.Z, (findNeighbors lookup (oldMap voxels) k).1⟩ : VShVoxel).key = k := rfl
        rw [this, hkeep]; rfl
  · intro v hv i hi
    rcases hmem v hv with ⟨w, hw, rfl, _⟩ | ⟨_, hN, _⟩
    · rw [orAll_key]
      exact bits_of (loose_orAll hS (fun k h => (hord k).mp h) hw (orAll_mono hd w hi))
    · exact (hN i).mp hi
  · intro v hv
    rcases hmem v hv with ⟨w, hw, rfl, hr⟩ | ⟨_, _, h⟩
    · intro hall
      have : s.toRemove.has w.key = true := by
        rw [hrm, ha]
        refine ⟨orAll order w, List.mem_map_of_mem hw, orAll_key _ _, ?_⟩
        apply BitVec.eq_of_getLsbD_eq
        intro j _
        rw [Bool.eq_iff_iff]
        constructor
        · intro hj
          obtain ⟨a, b, _⟩ := loose_orAll hS (fun k h => (hord k).mp h) hw hj
          rw [all_bit']; simp [a, b]
        · intro hj
          rw [← hall] at hj
          exact orAll_mono hd w hj
      rw [this] at hr; cases hr
    · exact h

end

theorem loose_move {S : Key → Prop} {vs : List VShVoxel} (h : Loose S vs) (dx dy dz : Int) :
    Loose (Moved S ⟨-dx, -dy, -dz⟩) (vs.map (fun v => v.moveBack dx dy dz)) := by
  have ek : ∀ w : VShVoxel, (⟨(w.moveBack dx dy dz).key.X - -dx, (w.moveBack dx dy dz).key.Y - -dy,
      (w.moveBack dx dy dz).key.Z - -dz⟩ : Key) = w.key := by
    intro w; simp [VShVoxel.key, VShVoxel.moveBack]
  refine ⟨⟨?_, ?_, ?_, ?_⟩, ?_⟩
  · rw [List.map_map]
    have : (VShVoxel.key ∘ fun v : VShVoxel => v.moveBack dx dy dz) =
        (fun k : Key => (⟨k.X - dx, k.Y - dy, k.Z - dz⟩ : Key)) ∘ VShVoxel.key := by
      funext v; rfl
    rw [this, ← List.map_map]
    apply h.nodup.map
    intro a b hab
    obtain ⟨x, y, z⟩ := a
    obtain ⟨x', y', z'⟩ := b
    simp only [Key.mk.injEq] at hab ⊢
    omega
  · intro v hv
    obtain ⟨w, hw, rfl⟩ := List.mem_map.mp hv
    unfold Moved
    rw [ek]
    exact h.inside w hw
  · intro k hk he
    rw [exposed_moved] at he
    obtain ⟨w, hw, hwk⟩ := List.mem_map.mp (h.covers _ hk he)
    refine List.mem_map.mpr ⟨_, List.mem_map_of_mem hw, ?_⟩
    obtain ⟨x, y, z, n⟩ := w
    obtain ⟨a, b, c⟩ := k
    simp only [VShVoxel.key, VShVoxel.moveBack, Key.mk.injEq] at hwk ⊢
    omega
  · intro v hv i hi
    obtain ⟨w, hw, rfl⟩ := List.mem_map.mp hv
    obtain ⟨a, b, c⟩ := h.bits' hw hi
    apply bits_of
    refine ⟨a, b, ?_⟩
    rw [nbr_moved, ek]
    exact c
  · intro v hv
    obtain ⟨w, hw, rfl⟩ := List.mem_map.mp hv
    exact h.notAll w hw

theorem loose_updated [GoFloat F] {S : Key → Prop} {vs : VShell F} (hS : Loose S vs.Voxels)
    (bv : BinVOX F) : Loose (Moved S (oldMove (displacement vs bv))) (updated vs bv).Voxels := by
  rw [updated_voxels]
  have := loose_move hS (-(oldMove (displacement vs bv)).X)
      (-(oldMove (displacement vs bv)).Y) (-(oldMove (displacement vs bv)).Z)
  simpa using this

/-- The shells that a user can build out of pairwise disjoint models: `New`, then `Add` any number of
    times, with any map orders and any capacities.  `S` is the voxel set built so far, in the shell's own
    coordinates. -/
inductive Built [GoFloat F] : VShell F → (Key → Prop) → Prop
  | new (sch : AddSched) (bv : BinVOX F) (vs : VShell F) : bv.white ≠ [] → sch.Valid bv 0 0 0 →
      VShell.New sch bv = some vs → Built vs (Occ bv)
  | add (sch : AddSched) (bv : BinVOX F) (vs vs' : VShell F) (S : Key → Prop) : Built vs S →
      sch.Valid bv (newMove (displacement vs bv)).X (newMove (displacement vs bv)).Y
        (newMove (displacement vs bv)).Z →
      (∀ k, Moved (Occ bv) (newMove (displacement vs bv)) k → ¬ Moved S (oldMove (displacement vs bv)) k) →
      vs.Add sch bv = some vs' →
      Built vs' (KUnion (Moved S (oldMove (displacement vs bv)))
        (Moved (Occ bv) (newMove (displacement vs bv))))

theorem built_inv [GoFloat F] {vs : VShell F} {S : Key → Prop} (h : Built vs S) :
    Loose S vs.Voxels ∧ vs.Voxels ≠ [] := by
  suffices hh : Loose S vs.Voxels ∧ (∃ k, S k) ∧ ∃ l : List Key, ∀ k, S k → k ∈ l by
    refine ⟨hh.1, ?_⟩
    obtain ⟨h1, ⟨k, hk⟩, l, hl⟩ := hh
    obtain ⟨m, hm, he⟩ := exists_exposed l hl hk
    have := h1.covers m hm he
    intro hn
    rw [hn] at this
    cases this
  induction h with
  | new sch bv vs hw hv he =>
    obtain ⟨vs', h1, h2, _⟩ := new_shell_exact sch bv hw hv
    rw [he] at h1; cases h1
    refine ⟨loose_of_shell h2, ?_, bv.white.keys ++ bv.color.keys, ?_⟩
    · cases hk : bv.white with
      | nil => exact absurd hk hw
      | cons p l =>
        refine ⟨p.1, Or.inl ?_⟩
        rw [← GoMap.mem_keys_iff, hk]
        simp [GoMap.keys]
    · intro k hk
      rw [List.mem_append, GoMap.mem_keys_iff, GoMap.mem_keys_iff]
      exact hk
  | add sch bv vs vs' S _ hv hdis he ih =>
    obtain ⟨h1, ⟨k, hk⟩, l, hl⟩ := ih
    have hne : vs.Voxels ≠ [] := by
      obtain ⟨m, hm, hex⟩ := exists_exposed l hl hk
      have := h1.covers m hm hex
      intro hn
      rw [hn] at this
      cases this
    refine ⟨?_, ?_, (l.map fun k => (⟨k.X + (oldMove (displacement vs bv)).X,
        k.Y + (oldMove (displacement vs bv)).Y, k.Z + (oldMove (displacement vs bv)).Z⟩ : Key)) ++
        sch.ordLookup, ?_⟩
    · rw [Add_eq _ _ _ hne] at he
      split at he
      · cases he
      · cases he
        dsimp only
        exact loose_add sch.cap (loose_updated h1 bv) (lookupOf_has hv) (mem_ordLookup hv) hv.nodup hdis
    · refine ⟨⟨k.X + (oldMove (displacement vs bv)).X, k.Y + (oldMove (displacement vs bv)).Y,
        k.Z + (oldMove (displacement vs bv)).Z⟩, Or.inl ?_⟩
      unfold Moved
      simpa using hk
    · rintro k' (h | h)
      · refine List.mem_append_left _ (List.mem_map.mpr ⟨_, hl _ h, ?_⟩)
        simp
      · exact List.mem_append_right _ ((mem_ordLookup hv k').mpr h)

/-- **C16.** Every history of additions of disjoint models, whatever the map orders and capacities: the
    shell lists no position twice, only voxels of the union, every exposed voxel of the union, and its
    bit maps name only neighbours that are really there. -/
theorem history_holds_shell [GoFloat F] {vs : VShell F} {S : Key → Prop} (h : Built vs S) :
    HoldsShell S vs.Voxels := (built_inv h).1.toHoldsShell

/-- Histories in which the slice never has to grow during the main loop. -/
inductive BuiltRoomy [GoFloat F] : VShell F → (Key → Prop) → Prop
  | new (sch : AddSched) (bv : BinVOX F) (vs : VShell F) : bv.white ≠ [] → sch.Valid bv 0 0 0 →
      VShell.New sch bv = some vs → BuiltRoomy vs (Occ bv)
  | add (sch : AddSched) (bv : BinVOX F) (vs vs' : VShell F) (S : Key → Prop) : BuiltRoomy vs S →
      sch.Valid bv (newMove (displacement vs bv)).X (newMove (displacement vs bv)).Y
        (newMove (displacement vs bv)).Z →
      (∀ k, Moved (Occ bv) (newMove (displacement vs bv)) k → ¬ Moved S (oldMove (displacement vs bv)) k) →
      vs.Voxels.length + sch.ordLookup.length ≤ sch.cap →
      vs.Add sch bv = some vs' →
      BuiltRoomy vs' (KUnion (Moved S (oldMove (displacement vs bv)))
        (Moved (Occ bv) (newMove (displacement vs bv))))

theorem BuiltRoomy.built [GoFloat F] {vs : VShell F} {S : Key → Prop} (h : BuiltRoomy vs S) : Built vs S := by
  induction h with
  | new sch bv vs hw hv he => exact .new sch bv vs hw hv he
  | add sch bv vs vs' S _ hv hdis _ he ih => exact .add sch bv vs vs' S ih hv hdis he

/-- **C16.** When the slices never have to grow, the shell is exactly that of the union, with exact
    neighbour maps. -/
theorem history_exact [GoFloat F] {vs : VShell F} {S : Key → Prop} (h : BuiltRoomy vs S) :
    IsShell S vs.Voxels := by
  induction h with
  | new sch bv vs hw hv he =>
    obtain ⟨vs', h1, h2, _⟩ := new_shell_exact sch bv hw hv
    rw [he] at h1; cases h1
    exact h2
  | add sch bv vs vs' S hb hv hdis hcap he ih =>
    exact add_shell_exact sch vs vs' bv S ih (built_inv hb.built).2 hv hdis hcap he

/-! ## C17 -/

/-- Any history in which no added voxel has the position of a voxel then listed in the shell (overlap
    with voxels that are not listed is allowed; `New` and `Add` to a still empty shell included). -/
inductive Listed [GoFloat F] : VShell F → Prop
  | new (sch : AddSched) (bv : BinVOX F) (vs : VShell F) : sch.Valid bv 0 0 0 →
      VShell.New sch bv = some vs → Listed vs
  | first (sch : AddSched) (bv : BinVOX F) (vs vs' : VShell F) : Listed vs → vs.Voxels = [] →
      sch.Valid bv 0 0 0 → vs.Add sch bv = some vs' → Listed vs'
  | add (sch : AddSched) (bv : BinVOX F) (vs vs' : VShell F) : Listed vs → vs.Voxels ≠ [] →
      sch.Valid bv (newMove (displacement vs bv)).X (newMove (displacement vs bv)).Y
        (newMove (displacement vs bv)).Z →
      (∀ k, Moved (Occ bv) (newMove (displacement vs bv)) k →
        ¬ Moved (fun k => k ∈ vs.Voxels.map VShVoxel.key) (oldMove (displacement vs bv)) k) →
      vs.Add sch bv = some vs' → Listed vs'

/-- **C17.** After any such history no position is listed twice. -/
theorem history_nodup [GoFloat F] {vs : VShell F} (h : Listed vs) : (vs.Voxels.map VShVoxel.key).Nodup := by
  induction h with
  | new sch bv vs hv he => exact new_nodup sch bv hv vs he
  | first sch bv vs vs' _ hne hv he ih =>
    rw [Add_eq_nil _ _ _ hne] at he
    cases he
    dsimp only
    obtain ⟨l, hl, hs⟩ := addVoxels_keys sch.cap (lookupOf sch ⟨0, 0, 0⟩) sch.ordLookup []
    refine List.Nodup.sublist hs ?_
    simpa using hv.nodup.sublist hl
  | add sch bv vs vs' _ hne hv hdis he ih => exact add_nodup sch vs vs' bv ih hne hv hdis he

/-! ### Witness: an enclosed voxel that stays in the shell -/

/-- The 26 neighbours of (1,1,1) but the two on its x axis. -/
def ringKeys : List Key :=
  ([0, 1, 2].flatMap fun x => [0, 1, 2].flatMap fun y => [0, 1, 2].map fun z => (⟨x, y, z⟩ : Key)).filter
    (fun k => ¬ (k.Y = 1 ∧ k.Z = 1))

/-- Models in a 3x3x3 grid. -/
def cubeBV (ks : List Key) : BinVOX ℚ := ⟨3, 3, 3, 0, 0, 0, 3, some (ks.map fun k => (k, ())), none⟩

/-- Map orders for such a model. -/
def cubeSch (ks : List Key) (cap : Nat) : AddSched := ⟨ks, [], ks, cap⟩

theorem cubeSch_valid (ks : List Key) (hn : ks.Nodup) (cap : Nat) : (cubeSch ks cap).Valid (cubeBV ks) 0 0 0 := by
  have hk : (cubeBV ks).white.keys = ks := by
    simp [cubeBV, BinVOX.white, mapOf, GoMap.keys, Function.comp_def]
  refine ⟨by rw [hk]; exact List.Perm.refl _, List.Perm.refl _, hn, ?_⟩
  intro k
  have hs : ∀ j : Key, j.shift 0 0 0 = j := by intro j; simp [Key.shift]
  constructor
  · intro h
    refine ⟨k, Or.inl ?_, (hs k).symm⟩
    rw [← GoMap.mem_keys_iff, hk]; exact h
  · rintro ⟨j, h | h, rfl⟩
    · rw [hs]
      rw [← GoMap.mem_keys_iff, hk] at h; exact h
    · simp [cubeBV, BinVOX.color, mapOf] at h

theorem occ_cube (ks : List Key) (k : Key) : Occ (cubeBV ks) k ↔ k ∈ ks := by
  have hk : (cubeBV ks).white.keys = ks := by
    simp [cubeBV, BinVOX.white, mapOf, GoMap.keys, Function.comp_def]
  unfold Occ
  rw [← GoMap.mem_keys_iff, hk]
  simp [cubeBV, BinVOX.color, mapOf]

/-- The run of the program in the next theorem. -/
theorem cube_run : ∃ v1 v2 v3 : VShell ℚ,
    VShell.New (cubeSch [⟨1, 1, 1⟩] 0) (cubeBV [⟨1, 1, 1⟩]) = some v1 ∧
    v1.Add (cubeSch [⟨0, 1, 1⟩, ⟨2, 1, 1⟩] 1) (cubeBV [⟨0, 1, 1⟩, ⟨2, 1, 1⟩]) = some v2 ∧
    v2.Add (cubeSch ringKeys 100) (cubeBV ringKeys) = some v3 ∧
    displacement v1 (cubeBV [⟨0, 1, 1⟩, ⟨2, 1, 1⟩]) = ⟨0, 0, 0⟩ ∧
    displacement v2 (cubeBV ringKeys) = ⟨0, 0, 0⟩ ∧ ⟨1, 1, 1⟩ ∈ v3.Voxels.map VShVoxel.key := by
  let v0 : VShell ℚ := ⟨3, 3, 3, 0, 0, 0, 3, []⟩
  let w1 := (VShell.New (cubeSch [⟨1, 1, 1⟩] 0) (cubeBV [⟨1, 1, 1⟩])).getD v0
  let w2 := (w1.Add (cubeSch [⟨0, 1, 1⟩, ⟨2, 1, 1⟩] 1) (cubeBV [⟨0, 1, 1⟩, ⟨2, 1, 1⟩])).getD v0
  let w3 := (w2.Add (cubeSch ringKeys 100) (cubeBV ringKeys)).getD v0
  exact ⟨w1, w2, w3, by decide +kernel, by decide +kernel, by decide +kernel, by decide +kernel,
    by decide +kernel, by decide +kernel⟩

/-- **C16 (what can go wrong).** Three disjoint models that fill a 3x3x3 cube, the second added with a
    slice of capacity 1: the enclosed middle voxel stays in the shell, without its right neighbour. -/
theorem enclosed_voxel_kept :
    ∃ (vs : VShell ℚ) (S : Key → Prop), Built vs S ∧
      (∀ k, S k ↔ (0 ≤ k.X ∧ k.X ≤ 2) ∧ (0 ≤ k.Y ∧ k.Y ≤ 2) ∧ (0 ≤ k.Z ∧ k.Z ≤ 2)) ∧
      ⟨1, 1, 1⟩ ∈ vs.Voxels.map VShVoxel.key ∧ ¬ IsShell S vs.Voxels := by
  obtain ⟨v1, v2, v3, e1, e2, e3, d2, d3, hk⟩ := cube_run
  have z : newMove ⟨0, 0, 0⟩ = ⟨0, 0, 0⟩ := by decide
  have z' : oldMove ⟨0, 0, 0⟩ = ⟨0, 0, 0⟩ := by decide
  have b1 : Built v1 (Occ (cubeBV [⟨1, 1, 1⟩])) := .new _ _ _ (by decide) (cubeSch_valid _ (by decide) _) e1
  have b2 := Built.add _ (cubeBV [⟨0, 1, 1⟩, ⟨2, 1, 1⟩]) v1 v2 _ b1
    (by rw [d2, z]; exact cubeSch_valid _ (by decide) 1)
    (by rw [d2, z, z', moved_zero, moved_zero]
        intro k h1 h2
        rw [occ_cube] at h1 h2
        have := List.mem_singleton.mp h2
        subst this
        revert h1; decide) e2
  have b3 := Built.add _ (cubeBV ringKeys) v2 v3 _ b2
    (by rw [d3, z]; exact cubeSch_valid _ (by decide) 100)
    (by rw [d3, d2, z, z', moved_zero, moved_zero, moved_zero, moved_zero]
        rintro k h1 (h2 | h2) <;> rw [occ_cube] at h1 h2 <;> simp only [List.mem_cons, List.not_mem_nil, or_false] at h2
        · subst h2; revert h1; decide
        · rcases h2 with rfl | rfl <;> (revert h1; decide)) e3
  rw [d3, d2, z, z', moved_zero, moved_zero, moved_zero, moved_zero] at b3
  have hS : ∀ k, KUnion (KUnion (Occ (cubeBV [⟨1, 1, 1⟩])) (Occ (cubeBV [⟨0, 1, 1⟩, ⟨2, 1, 1⟩])))
      (Occ (cubeBV ringKeys)) k ↔ (0 ≤ k.X ∧ k.X ≤ 2) ∧ (0 ≤ k.Y ∧ k.Y ≤ 2) ∧ (0 ≤ k.Z ∧ k.Z ≤ 2) := by
    intro k
    unfold KUnion
    rw [occ_cube, occ_cube, occ_cube]
    unfold ringKeys
    obtain ⟨x, y, z⟩ := k
    simp only [List.mem_cons, List.not_mem_nil, or_false, List.mem_filter, List.mem_flatMap, List.mem_map,
      Key.mk.injEq, decide_eq_true_eq]
    constructor
    · rintro ((⟨rfl, rfl, rfl⟩ | ⟨rfl, rfl, rfl⟩ | ⟨rfl, rfl, rfl⟩) | ⟨⟨a, ha, b, hb, c, hc, rfl, rfl, rfl⟩, _⟩) <;> omega
    · rintro ⟨hx, hy, hz⟩
      by_cases hm : y = 1 ∧ z = 1
      · left; omega
      · right
        exact ⟨⟨x, by omega, y, by omega, z, by omega, rfl, rfl, rfl⟩, hm⟩
  refine ⟨v3, _, b3, hS, hk, ?_⟩
  intro hsh
  obtain ⟨v, hv, hvk⟩ := List.mem_map.mp hk
  obtain ⟨x, y, z, ho, hn⟩ := ((hsh.2 v).mp hv).2.1
  apply hn
  rw [hS, hvk]
  unfold IsOffset at ho
  simp only [Key.shift]
  omega

/-! ## Examples: histories that end in `lostVS` and `rowVS` -/

theorem exBuilt : Built lostVS (KUnion (Moved (Occ midBV) (oldMove (displacement midVS endsBV)))
    (Moved (Occ endsBV) (newMove (displacement midVS endsBV)))) :=
  .add endsSch endsBV midVS lostVS _ (.new midSch midBV midVS mid_white midSch_valid midVS_new)
    (by rw [displacement_zero]; exact endsSch_valid) mid_ends_disjoint lostVS_add

example := history_holds_shell exBuilt
example := history_exact (.add roomySch endsBV midVS rowVS _ (.new midSch midBV midVS mid_white midSch_valid midVS_new)
    (by rw [displacement_zero]; exact roomySch_valid) mid_ends_disjoint (by decide) rowVS_add)
example := history_nodup (.add endsSch endsBV midVS lostVS (.new midSch midBV midVS midSch_valid midVS_new) (by decide)
    (by rw [displacement_zero]; exact endsSch_valid) (by
  rw [displacement_zero]
  intro k h1 h2
  unfold Moved Occ at h1
  unfold Moved at h2
  simp [newMove, oldMove, NonNeg, midVS, VShVoxel.key, endsBV, BinVOX.white, BinVOX.color, mapOf, ← GoMap.mem_keys_iff, GoMap.keys] at h1 h2
  omega) lostVS_add)

end StlDice
