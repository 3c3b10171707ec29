import Verif.Lemmas.ShellStep

/-! # C13-C17, C20: voxel shells -/

namespace StlDice
open Spec
variable {F : Type}

/-! ## C13 -/

/-- **C13.** `New` of a model with white voxels returns exactly the voxels that miss one of their 26
    neighbours, each once, with the exact neighbour bit map; whatever the map orders and slice capacities. -/
theorem new_shell_exact [GoFloat F] (sch : AddSched) (bv : BinVOX F) (hw : bv.white ≠ [])
    (hv : sch.Valid bv 0 0 0) :
    ∃ vs, VShell.New sch bv = some vs ∧ IsShell (Occ bv) vs.Voxels ∧
      vs.TX = bv.TX ∧ vs.TY = bv.TY ∧ vs.TZ = bv.TZ := by
  unfold VShell.New
  have : bv.white.length > 0 := List.length_pos_iff.mpr hw
  dsimp only
  rw [if_pos this, Add_eq_nil sch _ bv rfl]
  refine ⟨_, rfl, ?_, ?_⟩
  · dsimp only
    have hv' : sch.Valid bv (⟨0, 0, 0⟩ : Key).X (⟨0, 0, 0⟩ : Key).Y (⟨0, 0, 0⟩ : Key).Z := hv
    have h := addVoxels_exact (S := fun _ => False) sch.cap (voxels := []) (isShell_nil (fun _ h => h))
      (lookupOf_has hv') (mem_ordLookup hv') hv.nodup (fun _ _ h => h) (Or.inl rfl)
    refine (isShell_congr ?_ _).mp h
    intro k
    unfold KUnion
    rw [moved_zero]
    simp
  · dsimp only [grown]
    have := adjustScale_dims (F := F)
    simp only [(this _ _).2.2.2.1, (this _ _).2.2.2.2.1, (this _ _).2.2.2.2.2, and_self]

/-- **C13 (limit).** A model with only coloured voxels gives an empty shell. -/
theorem new_color_only_empty [GoFloat F] (sch : AddSched) (bv : BinVOX F) (hw : bv.white = []) :
    ∃ vs, VShell.New sch bv = some vs ∧ vs.Voxels = [] := by
  unfold VShell.New
  rw [hw]
  exact ⟨_, rfl, rfl⟩

/-! ## C14 -/

/-- **C14.** Two neighbouring voxels of a shell know each other: the offset bit is set in one and the
    opposite bit in the other. -/
theorem shell_neighbours_symmetric {S : Key → Prop} {vs : List VShVoxel} (h : IsShell S vs)
    {v w : VShVoxel} (hv : v ∈ vs) (hw : w ∈ vs) {x y z : Int} (ho : IsOffset x y z)
    (hk : w.key = v.key.shift x y z) {i j : Nat}
    (hi : (i : Int) = 9 * (x + 1) + 3 * (y + 1) + (z + 1))
    (hj : (j : Int) = 9 * (-x + 1) + 3 * (-y + 1) + (-z + 1)) :
    v.N.getLsbD i = true ∧ w.N.getLsbD j = true := by
  obtain ⟨hv1, _, hv3⟩ := (h.2 v).mp hv
  obtain ⟨hw1, _, hw3⟩ := (h.2 w).mp hw
  refine ⟨(hv3 i).mpr ⟨x, y, z, ho, hi, by rw [← hk]; exact hw1⟩,
    (hw3 j).mpr ⟨-x, -y, -z, ?_, hj, ?_⟩⟩
  · unfold IsOffset at *; omega
  · have : w.key.shift (-x) (-y) (-z) = v.key := by
      rw [hk]; simp [Key.shift]
    rw [this]; exact hv1

/-- **C14.** `diffKeys` has exactly the bit of the offset from the first to the second key; it is 0 for
    equal keys and for keys that are not neighbours. -/
theorem diffKeys_spec (o n : Key) (i : Nat) :
    (diffKeys o n).getLsbD i = true ↔
      ∃ x y z : Int, IsOffset x y z ∧ (i : Int) = 9 * (x + 1) + 3 * (y + 1) + (z + 1) ∧ n = o.shift x y z := by
  rw [diffKeys_bits]
  constructor
  · rintro ⟨a, b, c⟩
    obtain ⟨h1, h2⟩ := off_isOffset a b
    exact ⟨_, _, _, h1, h2, c.symm⟩
  · rintro ⟨x, y, z, h1, h2, h3⟩
    obtain ⟨a, b, c⟩ := off_of_isOffset h1 h2
    refine ⟨a, b, ?_⟩
    unfold nbr; rw [c]; exact h3.symm

/-- **C14.** The zero case of `diffKeys`. -/
theorem diffKeys_zero_iff (o n : Key) :
    diffKeys o n = 0#32 ↔ ¬ ∃ x y z : Int, IsOffset x y z ∧ n = o.shift x y z := by
  constructor
  · rintro h ⟨x, y, z, h1, h2⟩
    obtain ⟨i, hi⟩ := exists_idx h1
    have := (diffKeys_spec o n i).mpr ⟨x, y, z, h1, hi, h2⟩
    rw [h] at this; simp at this
  · intro h
    apply BitVec.eq_of_getLsbD_eq
    intro i _
    rw [BitVec.getLsbD_zero]
    by_contra hb
    have hb : (diffKeys o n).getLsbD i = true := by simpa using hb
    obtain ⟨x, y, z, h1, _, h3⟩ := (diffKeys_spec o n i).mp hb
    exact h ⟨x, y, z, h1, h3⟩

/-! ## C15 -/

theorem grown_congr [GoFloat F] (vs : VShell F) {a b : List Key} (h : ∀ k, k ∈ a ↔ k ∈ b) :
    grown vs a = grown vs b := by
  have hm : ∀ f : Key → Int, ∀ c, c ∈ a.map f ↔ c ∈ b.map f := by
    intro f c
    simp only [List.mem_map, h]
  unfold grown
  rw [cover_congr _ (hm Key.X), cover_congr _ (hm Key.Y), cover_congr _ (hm Key.Z)]

/-- **C15.** Header after `Add`: the same for every map order (for any shell, any overlap, any capacity). -/
theorem add_header_order_independent [GoFloat F] (s₁ s₂ : AddSched) (vs : VShell F) (bv : BinVOX F)
    (h1 : s₁.ordWhite.Perm bv.white.keys ∧ s₁.ordColor.Perm bv.color.keys)
    (h2 : s₂.ordWhite.Perm bv.white.keys ∧ s₂.ordColor.Perm bv.color.keys) :
    (vs.Add s₁ bv).map (fun w => { w with Voxels := [] }) =
    (vs.Add s₂ bv).map (fun w => { w with Voxels := [] }) := by
  have hm : ∀ p k, k ∈ movedKeys s₁ p ↔ k ∈ movedKeys s₂ p := by
    intro p k
    unfold movedKeys
    simp only [List.mem_map, List.mem_append, h1.1.mem_iff, h1.2.mem_iff, h2.1.mem_iff, h2.2.mem_iff]
  by_cases hne : vs.Voxels = []
  · rw [Add_eq_nil _ _ _ hne, Add_eq_nil _ _ _ hne, grown_congr _ (hm _)]
    simp only [Option.map_some]
  · rw [Add_eq _ _ _ hne, Add_eq _ _ _ hne, grown_congr _ (hm _)]
    split
    · rfl
    · simp only [Option.map_some]

/-- **C15.** `New` returns the same header and the same (voxel, N) entries for every map order. -/
theorem new_order_independent [GoFloat F] (s₁ s₂ : AddSched) (bv : BinVOX F)
    (h1 : s₁.Valid bv 0 0 0) (h2 : s₂.Valid bv 0 0 0) (v₁ v₂ : VShell F)
    (e1 : VShell.New s₁ bv = some v₁) (e2 : VShell.New s₂ bv = some v₂) :
    v₁.Voxels.Perm v₂.Voxels ∧ { v₁ with Voxels := [] } = { v₂ with Voxels := [] } := by
  by_cases hw : bv.white = []
  · have : VShell.New s₁ bv = VShell.New s₂ bv := by
      unfold VShell.New; rw [hw]; rfl
    rw [this, e2] at e1
    cases e1
    exact ⟨List.Perm.refl _, rfl⟩
  · constructor
    · obtain ⟨w1, g1, g2, _⟩ := new_shell_exact s₁ bv hw h1
      obtain ⟨w2, g3, g4, _⟩ := new_shell_exact s₂ bv hw h2
      rw [g1] at e1; rw [g3] at e2
      cases e1; cases e2
      exact isShell_perm g2 g4
    · unfold VShell.New at e1 e2
      have : bv.white.length > 0 := List.length_pos_iff.mpr hw
      dsimp only at e1 e2
      rw [if_pos this] at e1 e2
      have := add_header_order_independent s₁ s₂ ⟨bv.NX, bv.NY, bv.NZ, bv.TX, bv.TY, bv.TZ, bv.Scale, []⟩ bv
        ⟨h1.white, h1.color⟩ ⟨h2.white, h2.color⟩
      rw [e1, e2] at this
      simpa using this

/-! ## C16 -/

/-- **C16.** One `Add` of a model that is disjoint from the shell's voxel set, when the slice does not
    have to grow: exactly the shell of the union of the (moved) old and new voxels. -/
theorem add_shell_exact [GoFloat F] (sch : AddSched) (vs vs' : VShell F) (bv : BinVOX F)
    (S : Key → Prop) (hS : IsShell S vs.Voxels) (hne : vs.Voxels ≠ [])
    (hv : sch.Valid bv (newMove (displacement vs bv)).X (newMove (displacement vs bv)).Y
      (newMove (displacement vs bv)).Z)
    (hdis : ∀ k, Moved (Occ bv) (newMove (displacement vs bv)) k →
      ¬ Moved S (oldMove (displacement vs bv)) k)
    (hcap : vs.Voxels.length + sch.ordLookup.length ≤ sch.cap)
    (he : vs.Add sch bv = some vs') :
    IsShell (KUnion (Moved S (oldMove (displacement vs bv)))
      (Moved (Occ bv) (newMove (displacement vs bv)))) vs'.Voxels := by
  rw [Add_eq _ _ _ hne] at he
  split at he
  · cases he
  · cases he
    dsimp only
    refine addVoxels_exact sch.cap (updated_isShell hS bv) (lookupOf_has hv) (mem_ordLookup hv) hv.nodup
      hdis (Or.inr ?_)
    rw [updated_voxels, List.length_map]
    exact hcap

/-- **C16.** The same for any capacity: the positions in the shell are always exactly right, the new
    voxels' bit maps too; an old voxel's bit map lies between the old and the right one. -/
theorem add_shell_any_capacity [GoFloat F] (sch : AddSched) (vs vs' : VShell F) (bv : BinVOX F)
    (S : Key → Prop) (hS : IsShell S vs.Voxels) (hne : vs.Voxels ≠ [])
    (hv : sch.Valid bv (newMove (displacement vs bv)).X (newMove (displacement vs bv)).Y
      (newMove (displacement vs bv)).Z)
    (hdis : ∀ k, Moved (Occ bv) (newMove (displacement vs bv)) k →
      ¬ Moved S (oldMove (displacement vs bv)) k)
    (he : vs.Add sch bv = some vs') :
    let U := KUnion (Moved S (oldMove (displacement vs bv))) (Moved (Occ bv) (newMove (displacement vs bv)))
    (vs'.Voxels.map VShVoxel.key).Nodup ∧
    (∀ k, k ∈ vs'.Voxels.map VShVoxel.key ↔ U k ∧ Exposed U k) ∧
    (∀ v ∈ vs'.Voxels, Moved (Occ bv) (newMove (displacement vs bv)) v.key → NbrSpec U v.key v.N) ∧
    (∀ v ∈ vs'.Voxels, ∀ N N', NbrSpec (Moved S (oldMove (displacement vs bv))) v.key N → NbrSpec U v.key N' →
      ∀ i, (N.getLsbD i = true → Moved S (oldMove (displacement vs bv)) v.key → v.N.getLsbD i = true) ∧
        (v.N.getLsbD i = true → N'.getLsbD i = true)) := by
  intro U
  have hU := updated_isShell hS bv
  rw [Add_eq _ _ _ hne] at he
  split at he
  · cases he
  · cases he
    dsimp only
    obtain ⟨d, hd, _, hm, hn⟩ := addVoxels_result sch.cap hU (lookupOf_has hv) (mem_ordLookup hv) hdis
    refine ⟨hn hv.nodup, ?_, ?_, ?_⟩
    · intro k
      rw [List.mem_map]
      constructor
      · rintro ⟨v, hv', rfl⟩
        rcases (hm v).mp hv' with ⟨w, hw, rfl, he⟩ | ⟨h1, h2, _⟩
        · rw [orAll_key]; exact ⟨Or.inl ((hU.2 w).mp hw).1, he⟩
        · exact ⟨Or.inr h1, h2⟩
      · rintro ⟨h1 | h1, h2⟩
        · have hx : Exposed (Moved S (oldMove (displacement vs bv))) k :=
            nbrSpec_or_of_sub (fun k h => Or.inl h) h2
          obtain ⟨N, hN⟩ := exists_nbrSpec (Moved S (oldMove (displacement vs bv))) k
          have hw : (⟨k.X, k.Y, k.Z, N⟩ : VShVoxel) ∈ (updated vs bv).Voxels := (hU.2 _).mpr ⟨h1, hx, hN⟩
          exact ⟨orAll d ⟨k.X, k.Y, k.Z, N⟩, (hm _).mpr (Or.inl ⟨_, hw, rfl, h2⟩), by rw [orAll_key]; rfl⟩
        · obtain ⟨N, hN⟩ := exists_nbrSpec U k
          exact ⟨⟨k.X, k.Y, k.Z, N⟩, (hm _).mpr (Or.inr ⟨h1, h2, hN⟩), rfl⟩
    · intro v hv' ht
      rcases (hm v).mp hv' with ⟨w, hw, rfl, _⟩ | ⟨_, _, h3⟩
      · rw [orAll_key] at ht
        exact absurd ((hU.2 w).mp hw).1 (hdis _ ht)
      · exact h3
    · intro v hv' N N' hN hN' i
      rcases (hm v).mp hv' with ⟨w, hw, rfl, _⟩ | ⟨h1, _, h3⟩
      · rw [orAll_key] at hN hN'
        have hwN := ((hU.2 w).mp hw).2.2
        refine ⟨fun h _ => ?_, fun h => ?_⟩
        · rw [orAll_bit]; left
          rw [nbrSpec_unique hwN hN]; exact h
        · have hall := orAll_nbrSpec hU (mem_ordLookup hv) hw
          rw [← nbrSpec_unique hall hN']
          rw [orAll_bit] at h ⊢
          rcases h with h | ⟨k, hk, h⟩
          · exact Or.inl h
          · exact Or.inr ⟨k, hd.subset hk, h⟩
      · refine ⟨fun _ hs => absurd hs (hdis _ h1), fun h => ?_⟩
        rw [nbrSpec_unique h3 hN'] at h; exact h

/-! ### Witness: an update is lost when `append` moves the voxels -/

/-- A 3x1x1 grid holding the middle voxel. -/
def midBV : BinVOX ℚ := ⟨3, 1, 1, 0, 0, 0, 3, some [(⟨1, 0, 0⟩, ())], none⟩
/-- The same grid holding the two outer voxels. -/
def endsBV : BinVOX ℚ := ⟨3, 1, 1, 0, 0, 0, 3, some [(⟨0, 0, 0⟩, ()), (⟨2, 0, 0⟩, ())], none⟩
/-- Orders for the first model; its slice is nil. -/
def midSch : AddSched := ⟨[⟨1, 0, 0⟩], [], [⟨1, 0, 0⟩], 0⟩
/-- Orders for the second model; the slice made by `New` has capacity 1. -/
def endsSch : AddSched := ⟨[⟨0, 0, 0⟩, ⟨2, 0, 0⟩], [], [⟨0, 0, 0⟩, ⟨2, 0, 0⟩], 1⟩

theorem midSch_valid : midSch.Valid midBV 0 0 0 :=
  ⟨by decide, by decide, by decide, by
    intro k
    constructor
    · intro h
      have : k = ⟨1, 0, 0⟩ := by simpa [midSch] using h
      exact ⟨⟨1, 0, 0⟩, by decide, by rw [this]; rfl⟩
    · rintro ⟨j, hj, rfl⟩
      have : j = ⟨1, 0, 0⟩ := by
        simpa [midBV, BinVOX.white, BinVOX.color, mapOf, ← GoMap.mem_keys_iff, GoMap.keys] using hj
      rw [this]; decide⟩

theorem endsSch_valid : endsSch.Valid endsBV 0 0 0 :=
  ⟨by decide, by decide, by decide, by
    intro k
    constructor
    · intro h
      have : k = ⟨0, 0, 0⟩ ∨ k = ⟨2, 0, 0⟩ := by simpa [endsSch] using h
      rcases this with rfl | rfl
      · exact ⟨⟨0, 0, 0⟩, by decide, by rfl⟩
      · exact ⟨⟨2, 0, 0⟩, by decide, by rfl⟩
    · rintro ⟨j, hj, rfl⟩
      have : j = ⟨0, 0, 0⟩ ∨ j = ⟨2, 0, 0⟩ := by
        simpa [endsBV, BinVOX.white, BinVOX.color, mapOf, ← GoMap.mem_keys_iff, GoMap.keys] using hj
      rcases this with rfl | rfl <;> decide⟩

/-- **C16 (violated).** With valid map orders and a slice of capacity 1, merging two disjoint models
    gives the middle voxel a bit map without its right neighbour: the write went to the old array. -/
theorem add_loses_update :
    ∃ vs vs', VShell.New midSch midBV = some vs ∧ vs.Add endsSch endsBV = some vs' ∧
      (⟨1, 0, 0, diffKeys ⟨1, 0, 0⟩ ⟨0, 0, 0⟩⟩ : VShVoxel) ∈ vs'.Voxels ∧
      ¬ IsShell (KUnion (Occ midBV) (Occ endsBV)) vs'.Voxels := by
  refine ⟨⟨3, 1, 1, 0, 0, 0, 3, [⟨1, 0, 0, 0⟩]⟩,
    ⟨3, 1, 1, 0, 0, 0, 3, [⟨1, 0, 0, diffKeys ⟨1, 0, 0⟩ ⟨0, 0, 0⟩⟩, ⟨0, 0, 0, diffKeys ⟨0, 0, 0⟩ ⟨1, 0, 0⟩⟩,
      ⟨2, 0, 0, diffKeys ⟨2, 0, 0⟩ ⟨1, 0, 0⟩⟩]⟩, ?_, ?_, by simp, ?_⟩
  · decide +kernel
  · decide +kernel
  · intro h
    have hm := ((h.2 ⟨1, 0, 0, diffKeys ⟨1, 0, 0⟩ ⟨0, 0, 0⟩⟩).mp (by simp)).2.2
    have := (hm 22).mpr ⟨1, 0, 0, by unfold IsOffset; omega, by decide, Or.inr (by unfold Occ; decide)⟩
    exact absurd this (by decide +kernel)

/-! ## C17 -/

theorem checkStep_keys (cap : Nat) (old : GoMap Key Nat) (k : Key) (s : AddState) (ck : Key) :
    (checkStep cap old k s ck).cur.map VShVoxel.key = s.cur.map VShVoxel.key := by
  unfold checkStep
  cases old.get ck with
  | none => rfl
  | some i =>
    dsimp only
    split
    · exact orN_keys _ _ _
    · rfl

theorem loop_keys (cap : Nat) (lookup : GoMap Key Unit) (old : GoMap Key Nat) (order : List Key) (s : AddState) :
    ∃ l, l.Sublist order ∧ (order.foldl (addStep cap lookup old) s).cur.map VShVoxel.key =
      s.cur.map VShVoxel.key ++ l := by
  induction order generalizing s with
  | nil => exact ⟨[], List.Sublist.refl _, by simp⟩
  | cons k order ih =>
    rw [List.foldl_cons]
    obtain ⟨l, hl, he⟩ := ih (addStep cap lookup old s k)
    have hcs : ∀ (tc : List Key) (s : AddState), (tc.foldl (checkStep cap old k) s).cur.map VShVoxel.key =
        s.cur.map VShVoxel.key := by
      intro tc
      induction tc with
      | nil => intro s; rfl
      | cons c tc ih2 => intro s; rw [List.foldl_cons, ih2, checkStep_keys]
    have hstep : (addStep cap lookup old s k).cur.map VShVoxel.key = s.cur.map VShVoxel.key ∨
        (addStep cap lookup old s k).cur.map VShVoxel.key = s.cur.map VShVoxel.key ++ [k] := by
      rw [addStep_eq]
      split
      · exact Or.inl (hcs _ _)
      · right
        dsimp only
        rw [List.map_append, hcs]
        rfl
    rcases hstep with h | h
    · exact ⟨l, hl.trans (List.sublist_cons_self _ _), by rw [he, h]⟩
    · exact ⟨k :: l, hl.cons_cons k, by rw [he, h, List.append_assoc]; rfl⟩

theorem addVoxels_keys (cap : Nat) (lookup : GoMap Key Unit) (order : List Key) (voxels : List VShVoxel) :
    ∃ l, l.Sublist order ∧
      ((addVoxels cap lookup order voxels).map VShVoxel.key).Sublist (voxels.map VShVoxel.key ++ l) := by
  obtain ⟨l, hl, he⟩ := loop_keys cap lookup (oldMap voxels) order ⟨voxels, voxels, []⟩
  refine ⟨l, hl, ?_⟩
  unfold addVoxels
  dsimp only at he ⊢
  rw [← he]
  split
  · exact List.Sublist.map _ List.filter_sublist
  · exact List.Sublist.refl _

/-- **C17.** `Add` keeps the positions of a shell distinct when no added voxel has the position of an
    existing shell voxel; for every shell (exact or not), map order and capacity. -/
theorem add_nodup [GoFloat F] (sch : AddSched) (vs vs' : VShell F) (bv : BinVOX F)
    (hn : (vs.Voxels.map VShVoxel.key).Nodup) (hne : vs.Voxels ≠ [])
    (hv : sch.Valid bv (newMove (displacement vs bv)).X (newMove (displacement vs bv)).Y
      (newMove (displacement vs bv)).Z)
    (hdis : ∀ k, Moved (Occ bv) (newMove (displacement vs bv)) k →
      ¬ Moved (fun k => k ∈ vs.Voxels.map VShVoxel.key) (oldMove (displacement vs bv)) k)
    (he : vs.Add sch bv = some vs') : (vs'.Voxels.map VShVoxel.key).Nodup := by
  rw [Add_eq _ _ _ hne] at he
  split at he
  · cases he
  · cases he
    dsimp only
    obtain ⟨l, hl, hs⟩ := addVoxels_keys sch.cap (lookupOf sch (newMove (displacement vs bv))) sch.ordLookup
      (updated vs bv).Voxels
    refine List.Nodup.sublist hs ?_
    have hk : ((updated vs bv).Voxels).map VShVoxel.key = (vs.Voxels.map VShVoxel.key).map (fun k =>
        (⟨k.X + (oldMove (displacement vs bv)).X, k.Y + (oldMove (displacement vs bv)).Y,
          k.Z + (oldMove (displacement vs bv)).Z⟩ : Key)) := by
      rw [updated_voxels, List.map_map, List.map_map]
      apply List.map_congr_left
      intro v _
      simp [VShVoxel.key, VShVoxel.moveBack]
    rw [hk]
    apply List.Nodup.append
    · apply hn.map
      intro a b hab
      obtain ⟨x, y, z⟩ := a
      obtain ⟨x', y', z'⟩ := b
      simp only [Key.mk.injEq] at hab ⊢
      omega
    · exact hv.nodup.sublist hl
    · intro k h1 h2
      have h2 := (mem_ordLookup hv k).mp (hl.subset h2)
      apply hdis k h2
      obtain ⟨j, hj, rfl⟩ := List.mem_map.mp h1
      unfold Moved
      simpa using hj

/-- **C17 (first shell).** `New` never lists a position twice. -/
theorem new_nodup [GoFloat F] (sch : AddSched) (bv : BinVOX F) (hv : sch.Valid bv 0 0 0) (vs : VShell F)
    (he : VShell.New sch bv = some vs) : (vs.Voxels.map VShVoxel.key).Nodup := by
  by_cases hw : bv.white = []
  · obtain ⟨vs', h1, h2⟩ := new_color_only_empty sch bv hw
    rw [he] at h1; cases h1
    rw [h2]; exact List.nodup_nil
  · obtain ⟨vs', h1, h2, _⟩ := new_shell_exact sch bv hw hv
    rw [he] at h1; cases h1
    exact h2.1

/-- **C17 (violated).** Adding a model twice lists its voxel twice. -/
theorem add_twice_duplicates :
    ∃ vs vs', VShell.New midSch midBV = some vs ∧ vs.Add { midSch with cap := 2 } midBV = some vs' ∧
      ¬ (vs'.Voxels.map VShVoxel.key).Nodup := by
  refine ⟨⟨3, 1, 1, 0, 0, 0, 3, [⟨1, 0, 0, 0⟩]⟩, ⟨3, 1, 1, 0, 0, 0, 3, [⟨1, 0, 0, 0⟩, ⟨1, 0, 0, 0⟩]⟩, ?_, ?_, ?_⟩
  · decide +kernel
  · decide +kernel
  · decide

/-! ## C20 -/

/-- **C20.** `Add` with a nil shell or model, or with voxel densities whose integer parts differ on a
    non-empty shell, returns an error and leaves the shell alone; otherwise it returns no error. -/
theorem add_error_iff [GoFloat F] (sch : AddSched) (vs : Option (VShell F)) (bv : Option (BinVOX F)) :
    ((VShell.AddPtr sch vs bv).2 = false ↔
      vs = none ∨ bv = none ∨ ∃ v b, vs = some v ∧ bv = some b ∧ v.Voxels ≠ [] ∧
        GoFloat.toInt v.VoxelsPerMM ≠ GoFloat.toInt b.VoxelsPerMM) ∧
    ((VShell.AddPtr sch vs bv).2 = false → (VShell.AddPtr sch vs bv).1 = vs) := by
  cases vs with
  | none => simp [VShell.AddPtr]
  | some v =>
    cases bv with
    | none => simp [VShell.AddPtr]
    | some b =>
      unfold VShell.AddPtr
      dsimp only
      by_cases hne : v.Voxels = []
      · rw [Add_eq_nil _ _ _ hne]
        simp [hne]
      · rw [Add_eq _ _ _ hne]
        by_cases h : GoFloat.toInt v.VoxelsPerMM ≠ GoFloat.toInt b.VoxelsPerMM
        · rw [if_pos h]; simp [hne, h]
        · rw [if_neg h]; simp [h]

theorem merge_fold_none [GoFloat F] (files : List (AddSched × Option (BinVOX F))) :
    files.foldl VShell.mergeStep (none : Option (Option (VShell F))) = none := by
  induction files with
  | nil => rfl
  | cons f files ih => rw [List.foldl_cons]; exact ih

/-- **C20.** `Merge` of no files: no shell, no error. -/
theorem merge_nil [GoFloat F] : VShell.Merge ([] : List (AddSched × Option (BinVOX F))) = some none := rfl

/-- **C20.** `Merge` of the files so far decides: an error sticks, an unreadable file or a failed `Add`
    is an error, and otherwise the next file is added. -/
theorem merge_append [GoFloat F] (files : List (AddSched × Option (BinVOX F))) (f : AddSched × Option (BinVOX F)) :
    VShell.Merge (files ++ [f]) =
      match VShell.Merge files, f.2 with
      | none, _ => none
      | some _, none => none
      | some none, some bv => (VShell.New f.1 bv).map some
      | some (some vs), some bv => (vs.Add f.1 bv).map some := by
  unfold VShell.Merge
  rw [List.foldl_append]
  rfl

/-- **C20.** `Merge` stops with an error and no shell at the first unreadable file, whatever follows. -/
theorem merge_unreadable [GoFloat F] (pre post : List (AddSched × Option (BinVOX F))) (s : AddSched) :
    VShell.Merge (pre ++ (s, none) :: post) = none := by
  have h1 : VShell.Merge (pre ++ [(s, none)]) = none := by
    rw [merge_append]
    cases VShell.Merge pre with
    | none => rfl
    | some o => cases o <;> rfl
  have e : pre ++ (s, none) :: post = (pre ++ [(s, none)]) ++ post := by simp
  rw [e]
  unfold VShell.Merge at h1 ⊢
  rw [List.foldl_append, h1]
  exact merge_fold_none post

/-- **C20.** `Merge` with a failed `Add` is an error, whatever follows. -/
theorem merge_failed_add [GoFloat F] (pre post : List (AddSched × Option (BinVOX F))) (s : AddSched)
    (bv : BinVOX F) (vs : VShell F) (h : VShell.Merge pre = some (some vs)) (hf : vs.Add s bv = none) :
    VShell.Merge (pre ++ (s, some bv) :: post) = none := by
  have h1 : VShell.Merge (pre ++ [(s, some bv)]) = none := by
    rw [merge_append, h]
    simp [hf]
  have e : pre ++ (s, some bv) :: post = (pre ++ [(s, some bv)]) ++ post := by simp
  rw [e]
  unfold VShell.Merge at h1 ⊢
  rw [List.foldl_append, h1]
  exact merge_fold_none post

/-! ## Examples: the theorems above on the models `midBV` and `endsBV` -/

/-- What `New` makes of the middle voxel. -/
def midVS : VShell ℚ := ⟨3, 1, 1, 0, 0, 0, 3, [⟨1, 0, 0, 0⟩]⟩
/-- What `Add` makes of it and the two outer voxels if the slice has to grow. -/
def lostVS : VShell ℚ := ⟨3, 1, 1, 0, 0, 0, 3, [⟨1, 0, 0, diffKeys ⟨1, 0, 0⟩ ⟨0, 0, 0⟩⟩,
  ⟨0, 0, 0, diffKeys ⟨0, 0, 0⟩ ⟨1, 0, 0⟩⟩, ⟨2, 0, 0, diffKeys ⟨2, 0, 0⟩ ⟨1, 0, 0⟩⟩]⟩
/-- And if it has not. -/
def rowVS : VShell ℚ := ⟨3, 1, 1, 0, 0, 0, 3, [⟨1, 0, 0, diffKeys ⟨1, 0, 0⟩ ⟨0, 0, 0⟩ ||| diffKeys ⟨1, 0, 0⟩ ⟨2, 0, 0⟩⟩,
  ⟨0, 0, 0, diffKeys ⟨0, 0, 0⟩ ⟨1, 0, 0⟩⟩, ⟨2, 0, 0, diffKeys ⟨2, 0, 0⟩ ⟨1, 0, 0⟩⟩]⟩
/-- The schedule for that. -/
def roomySch : AddSched := { endsSch with cap := 3 }

theorem midVS_new : VShell.New midSch midBV = some midVS := by decide +kernel
theorem lostVS_add : midVS.Add endsSch endsBV = some lostVS := by decide +kernel
theorem rowVS_add : midVS.Add roomySch endsBV = some rowVS := by decide +kernel
theorem displacement_zero : displacement midVS endsBV = ⟨0, 0, 0⟩ := by decide +kernel

theorem mid_white : midBV.white ≠ [] := by decide

theorem midVS_shell : IsShell (Occ midBV) midVS.Voxels := by
  obtain ⟨vs, h, h2, -⟩ := new_shell_exact midSch midBV mid_white midSch_valid
  rw [midVS_new] at h
  injection h with h
  subst h
  exact h2

theorem roomySch_valid : roomySch.Valid endsBV 0 0 0 :=
  ⟨endsSch_valid.white, endsSch_valid.color, endsSch_valid.nodup, endsSch_valid.lookup⟩

theorem mid_ends_disjoint : ∀ k, Moved (Occ endsBV) (newMove (displacement midVS endsBV)) k →
    ¬ Moved (Occ midBV) (oldMove (displacement midVS endsBV)) k := by
  rw [displacement_zero]
  intro k h1 h2
  unfold Moved Occ at h1 h2
  simp [newMove, oldMove, NonNeg, midBV, endsBV, BinVOX.white, BinVOX.color, mapOf, ← GoMap.mem_keys_iff, GoMap.keys] at h1 h2
  omega

/-- The row of three voxels, exact: `add_shell_exact` on `rowVS`; every voxel of it knows its neighbours. -/
theorem rowVS_shell : IsShell (KUnion (Moved (Occ midBV) (oldMove (displacement midVS endsBV)))
    (Moved (Occ endsBV) (newMove (displacement midVS endsBV)))) rowVS.Voxels :=
  add_shell_exact roomySch midVS rowVS endsBV (Occ midBV) midVS_shell (by decide)
    (by rw [displacement_zero]; exact roomySch_valid) mid_ends_disjoint (by decide) rowVS_add

example := new_color_only_empty (F := ℚ) ⟨[], [⟨1, 0, 0⟩], [], 0⟩ ⟨3, 1, 1, 0, 0, 0, 3, none, none⟩ rfl
example := shell_neighbours_symmetric rowVS_shell (v := rowVS.Voxels[0]) (w := rowVS.Voxels[2]) (by simp) (by simp)
  (x := 1) (y := 0) (z := 0) (by unfold IsOffset; omega) (by decide) (i := 22) (j := 4) (by decide) (by decide)
example := add_header_order_independent endsSch ⟨[⟨2, 0, 0⟩, ⟨0, 0, 0⟩], [], [⟨2, 0, 0⟩, ⟨0, 0, 0⟩], 7⟩ midVS endsBV
  (by decide) (by decide)
example := new_order_independent midSch { midSch with cap := 5 } midBV midSch_valid
  ⟨midSch_valid.white, midSch_valid.color, midSch_valid.nodup, midSch_valid.lookup⟩ midVS midVS midVS_new (by decide +kernel)
example := add_shell_any_capacity endsSch midVS lostVS endsBV (Occ midBV) midVS_shell (by decide)
    (by rw [displacement_zero]; exact endsSch_valid) mid_ends_disjoint lostVS_add
example := add_nodup endsSch midVS lostVS endsBV (by decide) (by decide) (by rw [displacement_zero]; exact endsSch_valid) (by
  rw [displacement_zero]
  intro k h1 h2
  unfold Moved Occ at h1
  unfold Moved at h2
  simp [newMove, oldMove, NonNeg, midVS, VShVoxel.key, endsBV, BinVOX.white, BinVOX.color, mapOf, ← GoMap.mem_keys_iff, GoMap.keys] at h1 h2
  omega) lostVS_add
example := new_nodup midSch midBV midSch_valid midVS midVS_new
/-- A model of another resolution (two voxels per millimetre) cannot be added. -/
example := merge_failed_add [(midSch, some midBV)] [(endsSch, some endsBV)] endsSch { endsBV with Scale := 3 / 2 } midVS
  (by decide +kernel) (by decide +kernel)

end StlDice
