import Verif.Props.ShellHistory

/-! # C119: histories of additions to a shell of models that may overlap -/

namespace StlDice
open Spec
variable {F : Type}

/-- `vs` keeps the outer shell of `S`: only voxels of `S`, every exposed voxel of `S`, and every neighbour recorded in a bit map
    is really there. (Positions may be listed twice, bits may be missing, enclosed voxels may still be listed.) -/
structure Spec.KeepsShell (S : Key → Prop) (vs : List VShVoxel) : Prop where
  inside : ∀ v ∈ vs, S v.key
  covers : ∀ k, S k → Exposed S k → k ∈ vs.map VShVoxel.key
  bits : ∀ v ∈ vs, ∀ i : Nat, v.N.getLsbD i = true →
    ∃ x y z : Int, IsOffset x y z ∧ (i : Int) = 9 * (x + 1) + 3 * (y + 1) + (z + 1) ∧ S (v.key.shift x y z)

/-- Every bit of the voxel's map is a neighbour in `U`. -/
def TrueBits (U : Key → Prop) (v : VShVoxel) : Prop := ∀ j, v.N.getLsbD j = true → j < 27 ∧ j ≠ 13 ∧ U (nbr v.key j)

theorem trueBits_iff {U : Key → Prop} {v : VShVoxel} : TrueBits U v ↔ ∀ i : Nat, v.N.getLsbD i = true →
    ∃ x y z : Int, IsOffset x y z ∧ (i : Int) = 9 * (x + 1) + 3 * (y + 1) + (z + 1) ∧ U (v.key.shift x y z) := by
  constructor
  · exact fun h i hi => bits_of (h i hi)
  · intro h j hj
    obtain ⟨N, hN⟩ := exists_nbrSpec U v.key
    exact ((nbrSpec_iff _ _ _).mp hN j).mp ((hN j).mpr (h j hj))

theorem trueBits_orN {U : Key → Prop} {l : List VShVoxel} {i : Nat} {ck k : Key} (h : ∀ v ∈ l, TrueBits U v)
    (hi : ∀ v, l[i]? = some v → v.key = ck) (hk : U k) : ∀ v ∈ orN l i (diffKeys ck k), TrueBits U v := by
  intro v hv
  obtain ⟨j, hj, rfl⟩ := List.mem_iff_getElem.mp hv
  have hj' : j < l.length := by simpa [orN] using hj
  have e : (orN l i (diffKeys ck k))[j] = if i = j then { l[j] with N := l[j].N ||| diffKeys ck k } else l[j] := by
    exact List.getElem_modify (fun v : VShVoxel => { v with N := v.N ||| diffKeys ck k }) i l j hj
  rw [e]
  split
  · rename_i hij
    subst hij
    have hkey := hi _ (List.getElem?_eq_getElem hj')
    intro b hb
    change (l[i].N ||| diffKeys ck k).getLsbD b = true at hb
    rw [BitVec.getLsbD_or, Bool.or_eq_true] at hb
    show b < 27 ∧ b ≠ 13 ∧ U (nbr l[i].key b)
    rcases hb with hb | hb
    · exact h _ (List.getElem_mem hj') b hb
    · rw [diffKeys_bits] at hb
      obtain ⟨h1, h2, h3⟩ := hb
      refine ⟨h1, h2, ?_⟩
      rw [hkey, h3]
      exact hk
  · exact h _ (List.getElem_mem hj')

section
variable {S T : Key → Prop} {voxels : List VShVoxel} {lookup : GoMap Key Unit} {order : List Key}

/-- What holds in the main loop after the new voxels `done`. -/
structure OverlapInv (U T : Key → Prop) (voxels : List VShVoxel) (done : List Key) (s : AddState) : Prop where
  arr : ∀ v ∈ s.arr0, TrueBits U v
  cur : ∀ v ∈ s.cur, TrueBits U v
  arrKeys : s.arr0.map VShVoxel.key = voxels.map VShVoxel.key
  curKeys : ∃ l, s.cur.map VShVoxel.key = voxels.map VShVoxel.key ++ l ∧ (∀ k ∈ l, T k) ∧ ∀ k ∈ done, Exposed U k → k ∈ l
  removed : ∀ k, s.toRemove.has k = true → ¬ Exposed U k

theorem overlap_check {U : Key → Prop} {done : List Key} {s : AddState} (cap : Nat) {k : Key} (hk : U k) (ck : Key)
    (h : OverlapInv U T voxels done s) : OverlapInv U T voxels done (checkStep cap (oldMap voxels) k s ck) := by
  unfold checkStep
  cases hg : (oldMap voxels).get ck with
  | none => exact h
  | some i =>
    obtain ⟨w, hw, hwk⟩ := oldMap_get hg
    have hil : i < voxels.length := (List.getElem?_eq_some_iff.mp hw).1
    obtain ⟨l, e, hl, hd⟩ := h.curKeys
    have ha : ∀ v, s.arr0[i]? = some v → v.key = ck := by
      intro v hv
      have := congrArg (fun l => l[i]?) h.arrKeys
      simp only [List.getElem?_map, hv, hw, Option.map_some, Option.some.injEq] at this
      rw [this, hwk]
    have hc : ∀ v, s.cur[i]? = some v → v.key = ck := by
      intro v hv
      have : (s.cur.map VShVoxel.key)[i]? = (voxels.map VShVoxel.key ++ l)[i]? := congrArg (fun l => l[i]?) e
      rw [List.getElem?_append_left (by simpa using hil)] at this
      simp only [List.getElem?_map, hv, hw, Option.map_some, Option.some.injEq] at this
      rw [this, hwk]
    have harr := trueBits_orN h.arr ha hk
    have hcur : ∀ v ∈ (if s.cur.length ≤ cap then orN s.cur i (diffKeys ck k) else s.cur), TrueBits U v := by
      split
      · exact trueBits_orN h.cur hc hk
      · exact h.cur
    have hkeys : (if s.cur.length ≤ cap then orN s.cur i (diffKeys ck k) else s.cur).map VShVoxel.key = s.cur.map VShVoxel.key := by
      split
      · exact orN_keys _ _ _
      · rfl
    dsimp only
    refine ⟨harr, hcur, by rw [orN_keys]; exact h.arrKeys, ⟨l, by rw [hkeys]; exact e, hl, hd⟩, ?_⟩
    intro k' hk'
    dsimp only at hk'
    cases hv : (orN s.arr0 i (diffKeys ck k))[i]? with
    | none =>
      rw [hv] at hk'
      exact h.removed k' hk'
    | some v =>
      rw [hv] at hk'
      by_cases hall : v.N = allNeighbors
      · by_cases he : k' = ck
        · have hvk : v.key = ck := by
            have : ((orN s.arr0 i (diffKeys ck k)).map VShVoxel.key)[i]? = (voxels.map VShVoxel.key)[i]? :=
              congrArg (fun l => l[i]?) ((orN_keys s.arr0 i (diffKeys ck k)).trans h.arrKeys)
            simp only [List.getElem?_map, hv, hw, Option.map_some, Option.some.injEq] at this
            rw [this, hwk]
          rw [he, ← hvk]
          exact not_exposed_of_all (harr v (List.mem_of_getElem? hv)) hall
        · refine h.removed k' ?_
          simp only [hall, decide_true, if_true] at hk'
          rw [GoMap.has_set] at hk'
          simpa [he, Ne.symm he] using hk'
      · simp only [hall, decide_false, Bool.false_eq_true, if_false] at hk'
        exact h.removed k' hk'

theorem overlap_step {U : Key → Prop} {done : List Key} {s : AddState} (cap : Nat) (hold : ∀ v ∈ voxels, U v.key)
    (hlk : ∀ k, lookup.has k = true → U k) {k : Key} (hk : U k) (hT : T k) (h : OverlapInv U T voxels done s) :
    OverlapInv U T voxels (done ++ [k]) (addStep cap lookup (oldMap voxels) s k) := by
  have hfold : ∀ (tc : List Key) (s : AddState), OverlapInv U T voxels done s →
      OverlapInv U T voxels done (tc.foldl (checkStep cap (oldMap voxels) k) s) := by
    intro tc
    induction tc with
    | nil => exact fun s h => h
    | cons c tc ih => exact fun s h => ih _ (overlap_check cap hk c h)
  have h' := hfold (findNeighbors lookup (oldMap voxels) k).2 s h
  have hN : ∀ j, (findNeighbors lookup (oldMap voxels) k).1.getLsbD j = true → j < 27 ∧ j ≠ 13 ∧ U (nbr k j) := by
    intro j hj
    rw [findNeighbors_result] at hj
    obtain ⟨a, b, c | c⟩ := hj
    · exact ⟨a, b, hlk _ c⟩
    · obtain ⟨v, hv, hvk⟩ := List.mem_map.mp ((oldMap_has _ _).mp c)
      exact ⟨a, b, hvk ▸ hold v hv⟩
  rw [addStep_eq]
  generalize (findNeighbors lookup (oldMap voxels) k).1 = N at hN ⊢
  generalize (findNeighbors lookup (oldMap voxels) k).2.foldl (checkStep cap (oldMap voxels) k) s = s' at h' ⊢
  split
  · rename_i hall
    obtain ⟨l, e, hl, hd⟩ := h'.curKeys
    refine ⟨h'.arr, h'.cur, h'.arrKeys, ⟨l, e, hl, ?_⟩, h'.removed⟩
    intro c hc he
    rcases List.mem_append.mp hc with hc | hc
    · exact hd c hc he
    · rw [List.mem_singleton] at hc
      subst hc
      exact absurd he (not_exposed_of_all hN hall)
  · obtain ⟨l, e, hl, hd⟩ := h'.curKeys
    refine ⟨h'.arr, ?_, h'.arrKeys, ⟨l ++ [k], ?_, ?_, ?_⟩, h'.removed⟩
    · intro v hv
      rcases List.mem_append.mp hv with hv | hv
      · exact h'.cur v hv
      · rw [List.mem_singleton] at hv
        subst hv
        exact hN
    · rw [List.map_append, e, List.append_assoc]
      rfl
    · intro c hc
      rcases List.mem_append.mp hc with hc | hc
      · exact hl c hc
      · rw [List.mem_singleton] at hc
        exact hc ▸ hT
    · intro c hc he
      rcases List.mem_append.mp hc with hc | hc
      · exact List.mem_append_left _ (hd c hc he)
      · exact List.mem_append_right _ hc

theorem overlap_add (cap : Nat) (hS : KeepsShell S voxels) (hlk : ∀ k, lookup.has k = true ↔ T k) (hord : ∀ k, k ∈ order ↔ T k) :
    KeepsShell (KUnion S T) (addVoxels cap lookup order voxels) := by
  have hloop : ∀ (ks done : List Key) (s : AddState), (∀ k ∈ ks, T k) → OverlapInv (KUnion S T) T voxels done s →
      OverlapInv (KUnion S T) T voxels (done ++ ks) (ks.foldl (addStep cap lookup (oldMap voxels)) s) := by
    intro ks
    induction ks with
    | nil => intro done s _ h; rw [List.append_nil]; exact h
    | cons k ks ih =>
      intro done s hT h
      rw [List.foldl_cons, show done ++ k :: ks = (done ++ [k]) ++ ks by simp]
      refine ih _ _ (fun c hc => hT c (List.mem_cons_of_mem _ hc)) ?_
      exact overlap_step cap (fun v hv => Or.inl (hS.inside v hv)) (fun c hc => Or.inr ((hlk c).mp hc)) (Or.inr (hT k (by simp)))
        (hT k (by simp)) h
  have h0 : OverlapInv (KUnion S T) T voxels [] ⟨voxels, voxels, []⟩ := by
    have hb : ∀ v ∈ voxels, TrueBits (KUnion S T) v := by
      intro v hv j hj
      obtain ⟨a, b, c⟩ := trueBits_iff.mpr (hS.bits v hv) j hj
      exact ⟨a, b, Or.inl c⟩
    exact ⟨hb, hb, rfl, ⟨[], by simp, by simp, by simp⟩, by intro k hk; cases hk⟩
  have hinv := hloop order [] _ (fun k hk => (hord k).mp hk) h0
  rw [List.nil_append] at hinv
  unfold addVoxels
  dsimp only
  generalize order.foldl (addStep cap lookup (oldMap voxels)) ⟨voxels, voxels, []⟩ = s at hinv
  have hfilt : (if s.toRemove.length > 0 then s.cur.filter (fun v => !s.toRemove.has v.key) else s.cur) =
      s.cur.filter (fun v => !s.toRemove.has v.key) := by
    split
    · rfl
    · rename_i hl
      have : s.toRemove = [] := List.eq_nil_of_length_eq_zero (by omega)
      rw [this]
      simp
  rw [hfilt]
  obtain ⟨l, e, hl, hd⟩ := hinv.curKeys
  refine ⟨?_, ?_, ?_⟩
  · intro v hv
    have hk : v.key ∈ voxels.map VShVoxel.key ++ l := by
      rw [← e]
      exact List.mem_map_of_mem (List.mem_filter.mp hv).1
    rcases List.mem_append.mp hk with hk | hk
    · obtain ⟨w, hw, hwk⟩ := List.mem_map.mp hk
      exact Or.inl (hwk ▸ hS.inside w hw)
    · exact Or.inr (hl _ hk)
  · intro k hk hex
    have hk' : k ∈ s.cur.map VShVoxel.key := by
      rw [e, List.mem_append]
      rcases hk with hk | hk
      · left
        refine hS.covers k hk ?_
        obtain ⟨x, y, z, ho, hn⟩ := hex
        exact ⟨x, y, z, ho, fun h => hn (Or.inl h)⟩
      · exact Or.inr (hd k ((hord k).mpr hk) hex)
    obtain ⟨v, hv, rfl⟩ := List.mem_map.mp hk'
    refine List.mem_map_of_mem (List.mem_filter.mpr ⟨hv, ?_⟩)
    cases hr : s.toRemove.has v.key with
    | false => rfl
    | true => exact absurd hex (hinv.removed _ hr)
  · intro v hv
    exact trueBits_iff.mp (hinv.cur v (List.mem_filter.mp hv).1)

end

theorem keeps_of_shell {S : Key → Prop} {vs : List VShVoxel} (h : IsShell S vs) : KeepsShell S vs := by
  have := (loose_of_shell h).toHoldsShell
  exact ⟨this.inside, this.covers, this.bits⟩

theorem keeps_move {S : Key → Prop} {vs : List VShVoxel} (h : KeepsShell S vs) (dx dy dz : Int) :
    KeepsShell (Moved S ⟨-dx, -dy, -dz⟩) (vs.map (fun v => v.moveBack dx dy dz)) := by
  have ek : ∀ w : VShVoxel, (⟨(w.moveBack dx dy dz).key.X - -dx, (w.moveBack dx dy dz).key.Y - -dy,
      (w.moveBack dx dy dz).key.Z - -dz⟩ : Key) = w.key := by
    intro w; simp [VShVoxel.key, VShVoxel.moveBack]
  refine ⟨?_, ?_, ?_⟩
  · intro v hv
    obtain ⟨w, hw, rfl⟩ := List.mem_map.mp hv
    unfold Moved
    rw [ek]
    exact h.inside w hw
  · intro k hk he
    rw [exposed_moved] at he
    obtain ⟨w, hw, hwk⟩ := List.mem_map.mp (h.covers _ hk he)
    refine List.mem_map.mpr ⟨_, List.mem_map_of_mem hw, ?_⟩
    obtain ⟨x, y, z, n⟩ := w
    obtain ⟨a, b, c⟩ := k
    simp only [VShVoxel.key, VShVoxel.moveBack, Key.mk.injEq] at hwk ⊢
    omega
  · intro v hv i hi
    obtain ⟨w, hw, rfl⟩ := List.mem_map.mp hv
    obtain ⟨a, b, c⟩ := trueBits_iff.mpr (h.bits w hw) i hi
    apply bits_of
    refine ⟨a, b, ?_⟩
    rw [nbr_moved, ek]
    exact c

theorem keeps_updated [GoFloat F] {S : Key → Prop} {vs : VShell F} (hS : KeepsShell S vs.Voxels)
    (bv : BinVOX F) : KeepsShell (Moved S (oldMove (displacement vs bv))) (updated vs bv).Voxels := by
  rw [updated_voxels]
  have := keeps_move hS (-(oldMove (displacement vs bv)).X)
      (-(oldMove (displacement vs bv)).Y) (-(oldMove (displacement vs bv)).Z)
  simpa using this

/-- **C119.** One `Add` of a model that may overlap what is there: whatever the map orders and the capacity, the shell keeps the
    exposed voxels of the union. -/
theorem add_keeps_shell [GoFloat F] (sch : AddSched) (vs vs' : VShell F) (bv : BinVOX F) (S : Key → Prop)
    (hS : KeepsShell S vs.Voxels) (hne : vs.Voxels ≠ [])
    (hv : sch.Valid bv (newMove (displacement vs bv)).X (newMove (displacement vs bv)).Y (newMove (displacement vs bv)).Z)
    (he : vs.Add sch bv = some vs') :
    KeepsShell (KUnion (Moved S (oldMove (displacement vs bv))) (Moved (Occ bv) (newMove (displacement vs bv)))) vs'.Voxels := by
  rw [Add_eq _ _ _ hne] at he
  split at he
  · cases he
  · cases he
    dsimp only
    exact overlap_add sch.cap (keeps_updated hS bv) (lookupOf_has hv) (mem_ordLookup hv)

/-- All shells a user can build: `New`, then `Add` any number of times, of any models, overlapping or not, with any map orders and
    any capacities. `S` is the voxel set built so far, in the shell's own coordinates. -/
inductive BuiltAny [GoFloat F] : VShell F → (Key → Prop) → Prop
  | new (sch : AddSched) (bv : BinVOX F) (vs : VShell F) : bv.white ≠ [] → sch.Valid bv 0 0 0 →
      VShell.New sch bv = some vs → BuiltAny vs (Occ bv)
  | add (sch : AddSched) (bv : BinVOX F) (vs vs' : VShell F) (S : Key → Prop) : BuiltAny vs S →
      sch.Valid bv (newMove (displacement vs bv)).X (newMove (displacement vs bv)).Y (newMove (displacement vs bv)).Z →
      vs.Add sch bv = some vs' →
      BuiltAny vs' (KUnion (Moved S (oldMove (displacement vs bv))) (Moved (Occ bv) (newMove (displacement vs bv))))

theorem keeps_ne_nil {S : Key → Prop} {vs : List VShVoxel} (h : KeepsShell S vs) (l : List Key) (hl : ∀ k, S k → k ∈ l) {k : Key}
    (hk : S k) : vs ≠ [] := by
  obtain ⟨m, hm, he⟩ := exists_exposed l hl hk
  have := h.covers m hm he
  intro hn
  rw [hn] at this
  cases this

theorem occ_listed (bv : BinVOX F) (k : Key) (hk : Occ bv k) : k ∈ bv.white.keys ++ bv.color.keys := by
  rw [List.mem_append, GoMap.mem_keys_iff, GoMap.mem_keys_iff]
  exact hk

theorem white_occ {bv : BinVOX F} (hw : bv.white ≠ []) : ∃ k, Occ bv k := by
  cases hk : bv.white with
  | nil => exact absurd hk hw
  | cons p l =>
    refine ⟨p.1, Or.inl ?_⟩
    rw [← GoMap.mem_keys_iff, hk]
    simp [GoMap.keys]

/-- **C119.** Every history of additions, overlapping or not, whatever the map orders and capacities: the shell lists only voxels
    of the union, every exposed voxel of the union, and its bit maps name only neighbours that are really there; and it is never
    empty. -/
theorem history_keeps_shell [GoFloat F] {vs : VShell F} {S : Key → Prop} (h : BuiltAny vs S) :
    KeepsShell S vs.Voxels ∧ vs.Voxels ≠ [] := by
  suffices hh : KeepsShell S vs.Voxels ∧ (∃ k, S k) ∧ ∃ l : List Key, ∀ k, S k → k ∈ l by
    obtain ⟨h1, ⟨k, hk⟩, l, hl⟩ := hh
    exact ⟨h1, keeps_ne_nil h1 l hl hk⟩
  induction h with
  | new sch bv vs hw hv he =>
    obtain ⟨vs', h1, h2, _⟩ := new_shell_exact sch bv hw hv
    rw [he] at h1; cases h1
    exact ⟨keeps_of_shell h2, white_occ hw, _, occ_listed bv⟩
  | add sch bv vs vs' S _ hv he ih =>
    obtain ⟨h1, ⟨k, hk⟩, l, hl⟩ := ih
    refine ⟨add_keeps_shell sch vs vs' bv S h1 (keeps_ne_nil h1 l hl hk) hv he, ?_,
      (l.map fun k => (⟨k.X + (oldMove (displacement vs bv)).X,
        k.Y + (oldMove (displacement vs bv)).Y, k.Z + (oldMove (displacement vs bv)).Z⟩ : Key)) ++ sch.ordLookup, ?_⟩
    · refine ⟨⟨k.X + (oldMove (displacement vs bv)).X, k.Y + (oldMove (displacement vs bv)).Y,
        k.Z + (oldMove (displacement vs bv)).Z⟩, Or.inl ?_⟩
      unfold Moved
      simpa using hk
    · rintro k' (h | h)
      · refine List.mem_append_left _ (List.mem_map.mpr ⟨_, hl _ h, ?_⟩)
        simp
      · exact List.mem_append_right _ ((mem_ordLookup hv k').mpr h)

/-! ## Example: a model added twice, so that it lies on itself -/

example : ∃ (vs' : VShell ℚ) (S : Key → Prop), BuiltAny vs' S ∧ S ⟨1, 0, 0⟩ ∧ ¬ (vs'.Voxels.map VShVoxel.key).Nodup ∧
    KeepsShell S vs'.Voxels := by
  have hv : ∀ c, ({ midSch with cap := c } : AddSched).Valid midBV 0 0 0 := by
    intro c
    obtain ⟨a, b, d, e⟩ := midSch_valid
    exact ⟨a, b, d, e⟩
  have h0 : BuiltAny (⟨3, 1, 1, 0, 0, 0, 3, [⟨1, 0, 0, 0⟩]⟩ : VShell ℚ) (Occ midBV) :=
    .new midSch midBV _ (by decide +kernel) midSch_valid (by decide +kernel)
  have hd : displacement (⟨3, 1, 1, 0, 0, 0, 3, [⟨1, 0, 0, 0⟩]⟩ : VShell ℚ) midBV = ⟨0, 0, 0⟩ := by decide +kernel
  have h1 := BuiltAny.add { midSch with cap := 2 } midBV _ ⟨3, 1, 1, 0, 0, 0, 3, [⟨1, 0, 0, 0⟩, ⟨1, 0, 0, 0⟩]⟩ _ h0
    (by rw [hd]; exact hv 2) (by decide +kernel)
  refine ⟨_, _, h1, Or.inl ?_, by decide, (history_keeps_shell h1).1⟩
  rw [hd]
  exact Or.inl (by decide +kernel)

end StlDice
