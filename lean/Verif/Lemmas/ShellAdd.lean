import Verif.Lemmas.Neighbors

/-! The main loop of `Add`. -/

namespace StlDice
open Spec

/-! ### The `old` map -/

theorem oldMap_fold_has (l : List VShVoxel) (n : Nat) (m : GoMap Key Nat) (k : Key) :
    ((l.zipIdx n).foldl (fun m p => m.set p.1.key p.2) m).has k = true ↔
      m.has k = true ∨ k ∈ l.map VShVoxel.key := by
  induction l generalizing n m with
  | nil => simp
  | cons v l ih =>
    rw [List.zipIdx_cons, List.foldl_cons, ih, GoMap.has_set]
    simp only [Bool.or_eq_true, decide_eq_true_eq, List.map_cons, List.mem_cons]
    constructor
    · rintro ((h | h) | h)
      · exact Or.inr (Or.inl h.symm)
      · exact Or.inl h
      · exact Or.inr (Or.inr h)
    · rintro (h | h | h)
      · exact Or.inl (Or.inr h)
      · exact Or.inl (Or.inl h.symm)
      · exact Or.inr h

theorem oldMap_has (l : List VShVoxel) (k : Key) :
    (oldMap l).has k = true ↔ k ∈ l.map VShVoxel.key := by
  unfold oldMap; rw [oldMap_fold_has]; simp

theorem oldMap_fold_get (l : List VShVoxel) (n : Nat) (m : GoMap Key Nat) (k : Key) (i : Nat)
    (h : ((l.zipIdx n).foldl (fun m p => m.set p.1.key p.2) m).get k = some i) :
    m.get k = some i ∨ ∃ v, n ≤ i ∧ l[i - n]? = some v ∧ v.key = k := by
  induction l generalizing n m with
  | nil => exact Or.inl h
  | cons v l ih =>
    rw [List.zipIdx_cons, List.foldl_cons] at h
    rcases ih _ _ h with h | ⟨w, h1, h2, h3⟩
    · rw [GoMap.get_set] at h
      split at h
      · rename_i hk
        cases h
        exact Or.inr ⟨v, le_refl _, by simp, hk⟩
      · exact Or.inl h
    · refine Or.inr ⟨w, by omega, ?_, h3⟩
      have : i - n = (i - (n + 1)) + 1 := by omega
      rw [this, List.getElem?_cons_succ]; exact h2

theorem oldMap_get {l : List VShVoxel} {k : Key} {i : Nat} (h : (oldMap l).get k = some i) :
    ∃ v, l[i]? = some v ∧ v.key = k := by
  rcases oldMap_fold_get l 0 [] k i h with h | ⟨v, _, h2, h3⟩
  · simp at h
  · exact ⟨v, by simpa using h2, h3⟩

/-! ### Updating through pointers -/

/-- Or `dk` into the voxels with key `ck`. -/
def orKey (l : List VShVoxel) (ck : Key) (dk : NeighborBitMap) : List VShVoxel :=
  l.map fun v => if v.key = ck then { v with N := v.N ||| dk } else v

theorem orN_eq_orKey {l : List VShVoxel} (hn : (l.map VShVoxel.key).Nodup) {i : Nat} {ck : Key}
    (hi : (l.map VShVoxel.key)[i]? = some ck) (dk : NeighborBitMap) : orN l i dk = orKey l ck dk := by
  unfold orN orKey
  apply List.ext_getElem?
  intro j
  rw [List.getElem?_modify, List.getElem?_map]
  rw [List.getElem?_map] at hi
  obtain ⟨v, hv, hk⟩ := Option.map_eq_some_iff.mp hi
  cases hj : l[j]? with
  | none => simp
  | some w =>
    by_cases hij : i = j
    · subst hij
      rw [hv] at hj; cases hj
      simp [hk]
    · have : w.key ≠ ck := by
        intro hw
        apply hij
        have hil : i < (l.map VShVoxel.key).length := by
          have := (List.getElem?_eq_some_iff.mp hv).1; simpa using this
        have hjl : j < (l.map VShVoxel.key).length := by
          have := (List.getElem?_eq_some_iff.mp hj).1; simpa using this
        apply (List.Nodup.getElem_inj_iff hn (hi := hil) (hj := hjl)).mp
        rw [List.getElem_map, List.getElem_map]
        have e1 := (List.getElem?_eq_some_iff.mp hv).2
        have e2 := (List.getElem?_eq_some_iff.mp hj).2
        rw [e1, e2, hk, hw]
      simp [hij, this]

theorem orN_keys (l : List VShVoxel) (i : Nat) (dk : NeighborBitMap) :
    (orN l i dk).map VShVoxel.key = l.map VShVoxel.key := by
  apply List.ext_getElem?
  intro j
  unfold orN
  rw [List.getElem?_map, List.getElem?_modify, List.getElem?_map]
  cases l[j]? with
  | none => rfl
  | some v =>
    by_cases h : i = j
    · simp [h]; rfl
    · simp [h]

theorem orN_append (a b : List VShVoxel) (i : Nat) (dk : NeighborBitMap) (h : i < a.length) :
    orN (a ++ b) i dk = orN a i dk ++ b := by
  unfold orN
  apply List.ext_getElem?
  intro j
  rw [List.getElem?_modify]
  by_cases hj : j < a.length
  · rw [List.getElem?_append_left hj, List.getElem?_append_left (by simpa using hj),
      List.getElem?_modify]
  · rw [List.getElem?_append_right (by omega), List.getElem?_append_right (by simpa using hj)]
    have : i ≠ j := by omega
    simp [this]

/-- Record the new neighbour `k` in voxel `v`. -/
def orDiff (v : VShVoxel) (k : Key) : VShVoxel := { v with N := v.N ||| diffKeys v.key k }

/-- Record all new neighbours in `d`. -/
def orAll (d : List Key) (v : VShVoxel) : VShVoxel := d.foldl orDiff v

theorem orDiff_key (v : VShVoxel) (k : Key) : (orDiff v k).key = v.key := rfl

theorem orAll_key (d : List Key) (v : VShVoxel) : (orAll d v).key = v.key := by
  induction d generalizing v with
  | nil => rfl
  | cons k d ih => unfold orAll at *; rw [List.foldl_cons, ih]; rfl

theorem orAll_append (d : List Key) (k : Key) (v : VShVoxel) :
    orAll (d ++ [k]) v = orDiff (orAll d v) k := by
  unfold orAll; rw [List.foldl_append]; rfl

theorem orAll_bit (d : List Key) (v : VShVoxel) (j : Nat) :
    (orAll d v).N.getLsbD j = true ↔ v.N.getLsbD j = true ∨
      ∃ k ∈ d, j < 27 ∧ j ≠ 13 ∧ nbr v.key j = k := by
  induction d generalizing v with
  | nil => simp [orAll]
  | cons k d ih =>
    have e : orAll (k :: d) v = orAll d (orDiff v k) := rfl
    rw [e, ih]
    have : (orDiff v k).N.getLsbD j = true ↔ v.N.getLsbD j = true ∨
        (j < 27 ∧ j ≠ 13 ∧ nbr v.key j = k) := by
      unfold orDiff
      rw [BitVec.getLsbD_or, Bool.or_eq_true, diffKeys_bits]
    rw [this, orDiff_key]
    constructor
    · rintro ((h | h) | ⟨k', h1, h2⟩)
      · exact Or.inl h
      · exact Or.inr ⟨k, by simp, h⟩
      · exact Or.inr ⟨k', by simp [h1], h2⟩
    · rintro (h | ⟨k', h1, h2⟩)
      · exact Or.inl (Or.inl h)
      · rcases List.mem_cons.mp h1 with rfl | h1
        · exact Or.inl (Or.inr h2)
        · exact Or.inr ⟨k', h1, h2⟩

theorem all_or_diff (o n : Key) : allNeighbors ||| diffKeys o n = allNeighbors := by
  apply BitVec.eq_of_getLsbD_eq
  intro j _
  rw [BitVec.getLsbD_or]
  cases h : (diffKeys o n).getLsbD j
  · simp
  · have := (diffKeys_bits o n j).mp h
    rw [all_bit']; simp [this.1, this.2.1]

/-! ### One new voxel -/

/-- The update of the checked voxels. -/
def chk (k : Key) (tc : List Key) (v : VShVoxel) : VShVoxel :=
  if v.key ∈ tc then orDiff v k else v

theorem chk_key (k : Key) (tc : List Key) (v : VShVoxel) : (chk k tc v).key = v.key := by
  unfold chk; split <;> rfl

theorem orDiff_idem (v : VShVoxel) (k : Key) : orDiff (orDiff v k) k = orDiff v k := by
  unfold orDiff
  simp only [VShVoxel.key, VShVoxel.mk.injEq, true_and]
  rw [BitVec.or_assoc, BitVec.or_self]

theorem chk_cons (k ck : Key) (tc : List Key) (v : VShVoxel) :
    chk k tc (if v.key = ck then { v with N := v.N ||| diffKeys ck k } else v) = chk k (ck :: tc) v := by
  by_cases h : v.key = ck
  · subst h
    have e : ({ v with N := v.N ||| diffKeys v.key k } : VShVoxel) = orDiff v k := rfl
    simp only [if_true, e]
    have hh : chk k (v.key :: tc) v = orDiff v k := by simp [chk]
    rw [hh]
    unfold chk
    rw [orDiff_key, orDiff_idem]
    split <;> rfl
  · simp only [h, if_false]
    simp [chk, h]

theorem check_fold (cap : Nat) (voxels : List VShVoxel) (hn : (voxels.map VShVoxel.key).Nodup) (k : Key)
    (tc : List Key) (htc : ∀ t ∈ tc, t ∈ voxels.map VShVoxel.key) (arr0 o new : List VShVoxel)
    (rm : GoMap Key Unit) (ha : arr0.map VShVoxel.key = voxels.map VShVoxel.key)
    (ho : o.map VShVoxel.key = voxels.map VShVoxel.key) :
    ∃ rm', tc.foldl (checkStep cap (oldMap voxels) k) ⟨arr0, o ++ new, rm⟩ =
      ⟨arr0.map (chk k tc), (if (o ++ new).length ≤ cap then o.map (chk k tc) else o) ++ new, rm'⟩ ∧
      ∀ c, rm'.has c = true ↔ rm.has c = true ∨
        (c ∈ tc ∧ ∃ v ∈ arr0.map (chk k tc), v.key = c ∧ v.N = allNeighbors) := by
  induction tc generalizing arr0 o rm with
  | nil =>
    refine ⟨rm, ?_, by simp⟩
    have e : chk k [] = id := by funext v; simp [chk]
    simp [e]
  | cons ck tc ih =>
    have hck := htc ck (by simp)
    have hhas : (oldMap voxels).has ck = true := (oldMap_has voxels ck).mpr hck
    obtain ⟨i, hi⟩ := Option.isSome_iff_exists.mp hhas
    obtain ⟨v0, hv0, hk0⟩ := oldMap_get hi
    have hidx : (voxels.map VShVoxel.key)[i]? = some ck := by
      rw [List.getElem?_map, hv0]; simp [hk0]
    have hilen : i < (voxels.map VShVoxel.key).length := (List.getElem?_eq_some_iff.mp hidx).1
    have ea : orN arr0 i (diffKeys ck k) = orKey arr0 ck (diffKeys ck k) :=
      orN_eq_orKey (by rw [ha]; exact hn) (by rw [ha]; exact hidx) _
    have eo : orN o i (diffKeys ck k) = orKey o ck (diffKeys ck k) :=
      orN_eq_orKey (by rw [ho]; exact hn) (by rw [ho]; exact hidx) _
    have hol : i < o.length := by
      have : o.length = voxels.length := by
        have := congrArg List.length ho; simpa using this
      rw [this]; simpa using hilen
    have hal : i < arr0.length := by
      have : arr0.length = voxels.length := by
        have := congrArg List.length ha; simpa using this
      rw [this]; simpa using hilen
    rw [List.foldl_cons]
    -- the first step
    have hstep : ∃ rm1, checkStep cap (oldMap voxels) k ⟨arr0, o ++ new, rm⟩ ck =
        ⟨orKey arr0 ck (diffKeys ck k),
          (if (o ++ new).length ≤ cap then orKey o ck (diffKeys ck k) else o) ++ new, rm1⟩ ∧
        ∀ c, rm1.has c = true ↔ rm.has c = true ∨
          (c = ck ∧ ∃ v ∈ orKey arr0 ck (diffKeys ck k), v.key = ck ∧ v.N = allNeighbors) := by
      unfold checkStep
      rw [hi]
      dsimp only
      rw [ea]
      refine ⟨if (match (orKey arr0 ck (diffKeys ck k))[i]? with
          | some v => decide (v.N = allNeighbors)
          | none => false) = true then rm.set ck () else rm, ?_, ?_⟩
      · have hc : (if (o ++ new).length ≤ cap then orN (o ++ new) i (diffKeys ck k) else o ++ new) =
            (if (o ++ new).length ≤ cap then orKey o ck (diffKeys ck k) else o) ++ new := by
          split
          · rw [orN_append _ _ _ _ hol, eo]
          · rfl
        rw [hc]
        rfl
      · intro c
        have hi2 : (orKey arr0 ck (diffKeys ck k))[i]? = some (orDiff arr0[i] k) := by
          unfold orKey
          rw [List.getElem?_map, List.getElem?_eq_getElem hal]
          have hki : (arr0[i]).key = ck := by
            have : (arr0.map VShVoxel.key)[i]? = some ck := by rw [ha]; exact hidx
            rw [List.getElem?_map, List.getElem?_eq_getElem hal] at this
            simpa using this
          simp only [Option.map_some, hki, if_true, Option.some.injEq]
          unfold orDiff; rw [hki]
        have hki : (orDiff arr0[i] k).key = ck := by
          rw [orDiff_key]
          have : (arr0.map VShVoxel.key)[i]? = some ck := by rw [ha]; exact hidx
          rw [List.getElem?_map, List.getElem?_eq_getElem hal] at this
          simpa using this
        rw [hi2]
        dsimp only
        have hiff : (∃ v ∈ orKey arr0 ck (diffKeys ck k), v.key = ck ∧ v.N = allNeighbors) ↔
            (orDiff arr0[i] k).N = allNeighbors := by
          constructor
          · rintro ⟨v, hv, hvk, hvn⟩
            have hkeys : (orKey arr0 ck (diffKeys ck k)).map VShVoxel.key = voxels.map VShVoxel.key := by
              rw [← ea, orN_keys, ha]
            obtain ⟨j, hj⟩ := List.mem_iff_getElem?.mp hv
            have : i = j := by
              have hjl : j < (voxels.map VShVoxel.key).length := by
                rw [← hkeys]; have := (List.getElem?_eq_some_iff.mp hj).1; simpa using this
              apply (List.Nodup.getElem_inj_iff hn (hi := hilen) (hj := hjl)).mp
              have e1 := (List.getElem?_eq_some_iff.mp hidx).2
              have e2 : (voxels.map VShVoxel.key)[j]? = some ck := by
                rw [← hkeys, List.getElem?_map, hj]; simp [hvk]
              have e2 := (List.getElem?_eq_some_iff.mp e2).2
              rw [e1, e2]
            subst this
            rw [hi2] at hj; cases hj; exact hvn
          · intro hN
            exact ⟨_, List.mem_of_getElem? hi2, hki, hN⟩
        rw [hiff]
        by_cases hN : (orDiff arr0[i] k).N = allNeighbors
        · simp only [hN, decide_true, if_true, and_true, GoMap.has_set, Bool.or_eq_true, decide_eq_true_eq]
          constructor
          · rintro (h | h)
            · exact Or.inr h.symm
            · exact Or.inl h
          · rintro (h | h)
            · exact Or.inr h
            · exact Or.inl h.symm
        · simp [hN]
    obtain ⟨rm1, hs1, hrm1⟩ := hstep
    rw [hs1]
    have hkeysOrKey : ∀ l : List VShVoxel, (orKey l ck (diffKeys ck k)).map VShVoxel.key =
        l.map VShVoxel.key := by
      intro l
      unfold orKey
      rw [List.map_map]
      apply List.map_congr_left
      intro v _
      simp only [Function.comp]
      split <;> rfl
    have hchk : ∀ l : List VShVoxel, (orKey l ck (diffKeys ck k)).map (chk k tc) =
        l.map (chk k (ck :: tc)) := by
      intro l
      unfold orKey
      rw [List.map_map]
      apply List.map_congr_left
      intro v _
      exact chk_cons k ck tc v
    obtain ⟨rm2, hs2, hrm2⟩ := ih (fun t ht => htc t (List.mem_cons_of_mem _ ht))
      (orKey arr0 ck (diffKeys ck k)) (if (o ++ new).length ≤ cap then orKey o ck (diffKeys ck k) else o)
      rm1 (by rw [hkeysOrKey, ha]) (by split <;> simp only [hkeysOrKey, ho])
    refine ⟨rm2, ?_, ?_⟩
    · rw [hs2, hchk]
      congr 2
      by_cases hc : (o ++ new).length ≤ cap
      · have hc2 : (orKey o ck (diffKeys ck k) ++ new).length ≤ cap := by
          simpa [orKey] using hc
        simp only [hc, if_true, hc2, hchk]
      · simp only [hc, if_false]
    · intro c
      rw [hrm2, hrm1, hchk]
      constructor
      · rintro ((h | ⟨rfl, v, hv, hvk, hvn⟩) | ⟨h1, h2⟩)
        · exact Or.inl h
        · refine Or.inr ⟨by simp, chk k tc v, ?_, by rw [chk_key, hvk], ?_⟩
          · rw [← hchk]; exact List.mem_map_of_mem hv
          · unfold chk
            split
            · unfold orDiff; simp only [hvn, all_or_diff]
            · exact hvn
        · exact Or.inr ⟨List.mem_cons_of_mem _ h1, h2⟩
      · rintro (h | ⟨h1, v, hv, hvk, hvn⟩)
        · exact Or.inl (Or.inl h)
        · by_cases hin : c ∈ tc
          · exact Or.inr ⟨hin, v, hv, hvk, hvn⟩
          · have hc : c = ck := by
              rcases List.mem_cons.mp h1 with h | h
              · exact h
              · exact absurd h hin
            subst hc
            refine Or.inl (Or.inr ⟨rfl, v, ?_, hvk, hvn⟩)
            rw [← hchk] at hv
            obtain ⟨w, hw, rfl⟩ := List.mem_map.mp hv
            rw [chk_key] at hvk
            have : chk k tc w = w := by unfold chk; rw [if_neg (by rw [hvk]; exact hin)]
            rw [this]; exact hw

/-! ### The whole loop -/

/-- The new shell voxels appended for the processed keys. -/
def news (lookup : GoMap Key Unit) (old : GoMap Key Nat) (done : List Key) : List VShVoxel :=
  (done.filter (fun k => decide ((findNeighbors lookup old k).1 ≠ allNeighbors))).map
    (fun k => ⟨k.X, k.Y, k.Z, (findNeighbors lookup old k).1⟩)

/-- State of the loop after processing `done`: `d` is the prefix of `done` whose updates of old voxels
    reached the current slice. -/
structure LoopInv (cap : Nat) (voxels : List VShVoxel) (lookup : GoMap Key Unit) (done : List Key)
    (s : AddState) : Prop where
  arr0 : s.arr0 = voxels.map (orAll done)
  cur : ∃ d, d <+: done ∧ s.cur = voxels.map (orAll d) ++ news lookup (oldMap voxels) done ∧
    (s.cur.length ≤ cap → d = done)
  rm : ∀ c, s.toRemove.has c = true ↔ ∃ v ∈ s.arr0, v.key = c ∧ v.N = allNeighbors

theorem keys_map_orAll (l : List VShVoxel) (d : List Key) :
    (l.map (orAll d)).map VShVoxel.key = l.map VShVoxel.key := by
  rw [List.map_map]; apply List.map_congr_left; intro v _; exact orAll_key d v

theorem addStep_eq (cap : Nat) (lookup : GoMap Key Unit) (old : GoMap Key Nat) (s : AddState) (k : Key) :
    addStep cap lookup old s k =
      if (findNeighbors lookup old k).1 = allNeighbors then
        (findNeighbors lookup old k).2.foldl (checkStep cap old k) s
      else { (findNeighbors lookup old k).2.foldl (checkStep cap old k) s with
        cur := ((findNeighbors lookup old k).2.foldl (checkStep cap old k) s).cur ++
          [⟨k.X, k.Y, k.Z, (findNeighbors lookup old k).1⟩] } := by
  unfold addStep
  generalize findNeighbors lookup old k = p
  obtain ⟨a, b⟩ := p
  rfl

theorem addStep_inv (cap : Nat) (voxels : List VShVoxel) (hn : (voxels.map VShVoxel.key).Nodup)
    (lookup : GoMap Key Unit) (hdis : ∀ t ∈ voxels.map VShVoxel.key, lookup.has t = false)
    (done : List Key) (k : Key) (s : AddState) (h : LoopInv cap voxels lookup done s) :
    LoopInv cap voxels lookup (done ++ [k]) (addStep cap lookup (oldMap voxels) s k) := by
  obtain ⟨ha, ⟨d, hd, hcur, hcap⟩, hrm⟩ := h
  let tc := (findNeighbors lookup (oldMap voxels) k).2
  have htc : ∀ t ∈ tc, t ∈ voxels.map VShVoxel.key := by
    intro t ht
    obtain ⟨j, _, _, _, _, ho⟩ := (findNeighbors_toCheck lookup (oldMap voxels) k t).mp ht
    exact (oldMap_has voxels t).mp ho
  -- on the old voxels, `chk` is `orDiff`
  have hchk : ∀ (e : List Key), (voxels.map (orAll e)).map (chk k tc) = voxels.map (fun v => orDiff (orAll e v) k) := by
    intro e
    rw [List.map_map]
    apply List.map_congr_left
    intro v hv
    simp only [Function.comp]
    unfold chk
    rw [orAll_key]
    split
    · rfl
    · rename_i hnot
      have hz : diffKeys v.key k = 0#32 := by
        apply BitVec.eq_of_getLsbD_eq
        intro j _
        rw [BitVec.getLsbD_zero]
        by_contra hb
        have hb : (diffKeys v.key k).getLsbD j = true := by simpa using hb
        obtain ⟨h1, h2, h3⟩ := (diffKeys_bits _ _ _).mp hb
        obtain ⟨g1, g2, g3⟩ := nbr_symm h1 h2 h3.symm
        have hvk := List.mem_map_of_mem (f := VShVoxel.key) hv
        exact hnot ((findNeighbors_toCheck lookup (oldMap voxels) k v.key).mpr
          ⟨26 - j, g1, g2, g3.symm, hdis _ hvk, (oldMap_has voxels _).mpr hvk⟩)
      unfold orDiff
      rw [orAll_key, hz]
      simp
  obtain ⟨rm', hfold, hrm'⟩ := check_fold cap voxels hn k tc htc (voxels.map (orAll done))
    (voxels.map (orAll d)) (news lookup (oldMap voxels) done) s.toRemove (keys_map_orAll _ _)
    (keys_map_orAll _ _)
  have hs : s = ⟨voxels.map (orAll done), voxels.map (orAll d) ++ news lookup (oldMap voxels) done,
      s.toRemove⟩ := by
    rw [← ha, ← hcur]
  have hfold' := hfold
  rw [← hs] at hfold'
  have hmapE : ∀ e : List Key, voxels.map (fun v => orDiff (orAll e v) k) = voxels.map (orAll (e ++ [k])) := by
    intro e; apply List.map_congr_left; intro v _; rw [orAll_append]
  have hres : addStep cap lookup (oldMap voxels) s k =
      ⟨voxels.map (orAll (done ++ [k])),
        ((if (voxels.map (orAll d) ++ news lookup (oldMap voxels) done).length ≤ cap then
          voxels.map (orAll (d ++ [k])) else voxels.map (orAll d)) ++
          news lookup (oldMap voxels) (done ++ [k])), rm'⟩ := by
    rw [addStep_eq]
    dsimp only
    rw [hfold', hchk, hchk, hmapE, hmapE]
    unfold news
    rw [List.filter_append, List.map_append]
    by_cases hall : (findNeighbors lookup (oldMap voxels) k).1 = allNeighbors
    · simp [hall]
    · simp [hall]
  rw [hres]
  have hrm2 : ∀ c, rm'.has c = true ↔ ∃ v ∈ voxels.map (orAll (done ++ [k])), v.key = c ∧
      v.N = allNeighbors := by
    intro c
    rw [hrm', hrm, ha]
    have e2 := hchk done
    rw [hmapE] at e2
    constructor
    · rintro (⟨v, hv, hvk, hvn⟩ | ⟨_, v, hv, h2⟩)
      · obtain ⟨w, hw, rfl⟩ := List.mem_map.mp hv
        refine ⟨orAll (done ++ [k]) w, List.mem_map_of_mem hw, by rw [orAll_key]; rw [orAll_key] at hvk; exact hvk, ?_⟩
        rw [orAll_append]; unfold orDiff; simp only [hvn, all_or_diff]
      · rw [e2] at hv; exact ⟨v, hv, h2⟩
    · rintro ⟨v, hv, hvk, hvn⟩
      by_cases hin : c ∈ tc
      · exact Or.inr ⟨hin, v, by rw [e2]; exact hv, hvk, hvn⟩
      · left
        rw [← e2] at hv
        obtain ⟨w, hw, rfl⟩ := List.mem_map.mp hv
        rw [chk_key] at hvk
        have : chk k tc w = w := by unfold chk; rw [if_neg (by rw [hvk]; exact hin)]
        rw [this] at hvn
        exact ⟨w, hw, hvk, hvn⟩
  refine ⟨rfl, ?_, hrm2⟩
  by_cases hc : (voxels.map (orAll d) ++ news lookup (oldMap voxels) done).length ≤ cap
  · have hdd : d = done := hcap (by rw [hcur]; exact hc)
    subst hdd
    exact ⟨d ++ [k], List.prefix_refl _, by rw [if_pos hc], fun _ => rfl⟩
  · refine ⟨d, hd.trans (List.prefix_append _ _), by rw [if_neg hc], ?_⟩
    intro hc2
    exfalso
    rw [if_neg hc] at hc2
    apply hc
    refine le_trans ?_ hc2
    simp only [List.length_append, Nat.add_le_add_iff_left]
    unfold news
    rw [List.filter_append, List.map_append, List.length_append]
    omega

theorem loop_inv (cap : Nat) (voxels : List VShVoxel) (hn : (voxels.map VShVoxel.key).Nodup)
    (hexp : ∀ v ∈ voxels, v.N ≠ allNeighbors)
    (lookup : GoMap Key Unit) (hdis : ∀ t ∈ voxels.map VShVoxel.key, lookup.has t = false)
    (order : List Key) :
    LoopInv cap voxels lookup order
      (order.foldl (addStep cap lookup (oldMap voxels)) ⟨voxels, voxels, []⟩) := by
  have hgen : ∀ (todo done : List Key) (s : AddState), LoopInv cap voxels lookup done s →
      LoopInv cap voxels lookup (done ++ todo)
        (todo.foldl (addStep cap lookup (oldMap voxels)) s) := by
    intro todo
    induction todo with
    | nil => intro done s h; simpa using h
    | cons k todo ih =>
      intro done s h
      have := ih (done ++ [k]) _ (addStep_inv cap voxels hn lookup hdis done k s h)
      rw [List.append_assoc, List.singleton_append] at this
      rw [List.foldl_cons]
      exact this
  have e : orAll [] = id := by funext v; unfold orAll; rw [List.foldl_nil]; rfl
  have hinit : LoopInv cap voxels lookup [] ⟨voxels, voxels, []⟩ := by
    refine ⟨?_, ⟨[], List.prefix_refl _, ?_, fun _ => rfl⟩, ?_⟩
    · rw [e, List.map_id]
    · rw [e, List.map_id]; simp [news]
    · intro c
      simp only [GoMap.has_nil, Bool.false_eq_true, false_iff]
      rintro ⟨v, hv, _, hvn⟩
      exact hexp v hv hvn
  have hfin := hgen order [] _ hinit
  rw [List.nil_append] at hfin
  exact hfin

end StlDice
