import Verif.Lemmas.Grid
import Mathlib.Data.List.Chain

/-! Lemmas about the run-length coded data section of binvox files. -/

namespace StlDice
open Spec
variable {F : Type}

/-! ### Reading -/

/-- The reader on the expanded values. -/
def readVals (r : Region) (h : Header F) :
    List UInt8 → Cursor → WhiteVoxelMap → Option (Cursor × WhiteVoxelMap)
  | [], c, m => some (c, m)
  | v :: vs, c, m =>
    if c.xi ≥ h.nx then none
    else readVals r h vs (c.next h.ny h.nz)
      (if v = 1 && inRegion r h c then m.set ⟨c.xi, c.yi, c.zi⟩ () else m)

theorem readRun_eq (r : Region) (h : Header F) (v : UInt8) (n : Nat) (c : Cursor)
    (m : WhiteVoxelMap) : readRun r h v n c m = readVals r h (List.replicate n v) c m := by
  induction n generalizing c m with
  | zero => rfl
  | succ n ih => simp only [readRun, List.replicate_succ, readVals, ih]

theorem readVals_append (r : Region) (h : Header F) (a b : List UInt8) (c : Cursor)
    (m : WhiteVoxelMap) :
    readVals r h (a ++ b) c m =
      match readVals r h a c m with
      | none => none
      | some (c, m) => readVals r h b c m := by
  induction a generalizing c m with
  | nil => rfl
  | cons v a ih =>
    simp only [List.cons_append, readVals]
    split
    · rfl
    · exact ih _ _

/-- The map after reading values from index `i` on. -/
def addVals (r : Region) (h : Header F) : List UInt8 → Nat → WhiteVoxelMap → WhiteVoxelMap
  | [], _, m => m
  | v :: vs, i, m =>
    let c := cursorAt h.ny h.nz i
    addVals r h vs (i + 1) (if v = 1 && inRegion r h c then m.set ⟨c.xi, c.yi, c.zi⟩ () else m)

/-- Capacity of the grid as the reader's loop sees it. -/
theorem capacity_eq (h : Header F) :
    capacity h = h.nx.toNat * effDim h.nz * effDim h.ny := rfl

theorem readVals_cursorAt (r : Region) (h : Header F) (hnx : 0 ≤ h.nx) (vs : List UInt8) (i : Nat)
    (m : WhiteVoxelMap) (hi : i ≤ capacity h) :
    readVals r h vs (cursorAt h.ny h.nz i) m =
      if i + vs.length ≤ capacity h then
        some (cursorAt h.ny h.nz (i + vs.length), addVals r h vs i m) else none := by
  induction vs generalizing i m with
  | nil => simp [readVals, addVals, hi]
  | cons v vs ih =>
    simp only [readVals]
    have hx := cursorAt_x_lt h.ny h.nz h.nx hnx i
    rw [← capacity_eq] at hx
    by_cases hc : i < capacity h
    · have : ¬ (cursorAt h.ny h.nz i).xi ≥ h.nx := by have := hx.mpr hc; omega
      rw [if_neg this, cursorAt_next, ih _ _ (by omega)]
      simp only [addVals, List.length_cons]
      have e : i + 1 + vs.length = i + (vs.length + 1) := by omega
      rw [e]
    · have : (cursorAt h.ny h.nz i).xi ≥ h.nx := by
        by_contra hh; exact hc (hx.mp (by omega))
      rw [if_pos this, if_neg]
      simp only [List.length_cons]; omega

theorem cursorAt_key (ny nz : Int) (i : Nat) :
    (⟨(cursorAt ny nz i).xi, (cursorAt ny nz i).yi, (cursorAt ny nz i).zi⟩ : Key) =
      keyAt (effDim ny) (effDim nz) i := rfl

theorem addVals_has (r : Region) (h : Header F) (vs : List UInt8) (i : Nat) (m : WhiteVoxelMap)
    (k : Key) :
    (addVals r h vs i m).has k = true ↔ m.has k = true ∨
      ∃ j, vs[j]? = some 1 ∧ keyAt (effDim h.ny) (effDim h.nz) (i + j) = k ∧
        inRegion r h ⟨k.X, k.Y, k.Z⟩ = true := by
  induction vs generalizing i m with
  | nil => simp [addVals]
  | cons v vs ih =>
    simp only [addVals]
    rw [ih]
    have hstep : ((if (v = 1 && inRegion r h (cursorAt h.ny h.nz i)) = true then
          m.set (keyAt (effDim h.ny) (effDim h.nz) i) () else m).has k = true) ↔
        (m.has k = true ∨ (v = 1 ∧ keyAt (effDim h.ny) (effDim h.nz) i = k ∧
          inRegion r h ⟨k.X, k.Y, k.Z⟩ = true)) := by
      by_cases hv : v = 1
      · by_cases hr : inRegion r h (cursorAt h.ny h.nz i) = true
        · simp only [hv, hr, decide_true, Bool.and_self, if_true, GoMap.has_set, Bool.or_eq_true,
            decide_eq_true_eq, true_and]
          constructor
          · rintro (e | e)
            · right; subst e; exact ⟨rfl, hr⟩
            · exact Or.inl e
          · rintro (e | e)
            · exact Or.inr e
            · exact Or.inl e.1
        · simp only [hv, hr, decide_true, Bool.and_false, Bool.false_eq_true, if_false, true_and]
          constructor
          · exact Or.inl
          · rintro (e | e)
            · exact e
            · obtain ⟨e1, e2⟩ := e; subst e1; exact absurd e2 hr
      · simp [hv]
    rw [cursorAt_key, hstep]
    constructor
    · rintro ((e | ⟨e1, e2, e3⟩) | ⟨j, e1, e2, e3⟩)
      · exact Or.inl e
      · exact Or.inr ⟨0, by simp [e1], by simpa using e2, e3⟩
      · exact Or.inr ⟨j + 1, by simpa using e1, by rw [← e2]; congr 1; omega, e3⟩
    · rintro (e | ⟨j, e1, e2, e3⟩)
      · exact Or.inl (Or.inl e)
      · cases j with
        | zero => exact Or.inl (Or.inr ⟨by simpa using e1, by simpa using e2, e3⟩)
        | succ j => exact Or.inr ⟨j, by simpa using e1, by rw [← e2]; congr 1; omega, e3⟩

theorem addVals_WF (r : Region) (h : Header F) (vs : List UInt8) (i : Nat) (m : WhiteVoxelMap)
    (hm : m.WF) : (addVals r h vs i m).WF := by
  induction vs generalizing i m with
  | nil => exact hm
  | cons v vs ih =>
    simp only [addVals]
    apply ih
    split
    · exact GoMap.WF_set hm _ _
    · exact hm

theorem readData_iff (r : Region) (h : Header F) (clean : Bool) (bs : Bytes) (c : Cursor)
    (m m' : WhiteVoxelMap) :
    readData r h clean bs c m = some m' ↔ clean = true ∧ ∃ ps, bs = pairBytes ps ∧ LegalPairs ps ∧
      ∃ c', readVals r h (expand ps) c m = some (c', m') := by
  induction bs, c, m using readData.induct r h clean with
  | case1 c m hc =>
    simp only [readData, hc, if_true, Option.some.injEq, true_and]
    constructor
    · intro hh
      exact ⟨[], rfl, by simp [LegalPairs], c, by rw [hh]; rfl⟩
    · rintro ⟨ps, hb, _, c', hv⟩
      cases ps with
      | nil =>
        simp only [expand, List.flatMap_nil, readVals, Option.some.injEq, Prod.mk.injEq] at hv
        exact hv.2
      | cons p ps => simp [pairBytes] at hb
  | case2 c m hc => simp [readData, hc]
  | case3 b c m =>
    simp only [readData]
    constructor
    · intro hh; cases hh
    · rintro ⟨_, ps, hb, _⟩
      cases ps with
      | nil => simp [pairBytes] at hb
      | cons p ps => simp [pairBytes] at hb
  | case4 v n rest c m hv =>
    rw [readData, if_pos hv]
    constructor
    · intro hh; cases hh
    · rintro ⟨_, ps, hb, hl, _⟩
      cases ps with
      | nil => simp [pairBytes] at hb
      | cons p ps =>
        simp only [pairBytes, List.flatMap_cons, List.cons_append, List.nil_append,
          List.cons.injEq] at hb
        have := (hl p (by simp)).1
        rw [← hb.1] at this
        rcases this with e | e
        · exact absurd e hv.1
        · exact absurd e hv.2
  | case5 v rest c m hv =>
    rw [readData, if_neg hv, if_pos rfl]
    constructor
    · intro hh; cases hh
    · rintro ⟨_, ps, hb, hl, _⟩
      cases ps with
      | nil => simp [pairBytes] at hb
      | cons p ps =>
        simp only [pairBytes, List.flatMap_cons, List.cons_append, List.nil_append,
          List.cons.injEq] at hb
        exact absurd hb.2.1.symm (hl p (by simp)).2
  | case6 v n rest c m hv hn hrun =>
    rw [readData, if_neg hv, if_neg hn]
    constructor
    · rw [hrun]; intro hh; cases hh
    · rintro ⟨_, ps, hb, hl, c', hvs⟩
      cases ps with
      | nil => simp [pairBytes] at hb
      | cons p ps =>
        simp only [pairBytes, List.flatMap_cons, List.cons_append, List.nil_append,
          List.cons.injEq] at hb
        obtain ⟨rfl, rfl, hb⟩ := hb
        simp only [expand, List.flatMap_cons] at hvs
        rw [readVals_append, ← readRun_eq, hrun] at hvs
        cases hvs
  | case7 v n rest c m hv hn c2 m2 hrun ih =>
    rw [readData, if_neg hv, if_neg hn, hrun]
    simp only
    rw [ih]
    constructor
    · rintro ⟨hc, ps, hb, hl, c', hvs⟩
      refine ⟨hc, (v, n) :: ps, by simp [pairBytes, hb], ?_, c', ?_⟩
      · intro p hp
        rcases List.mem_cons.mp hp with rfl | hp
        · refine ⟨?_, hn⟩
          by_cases h0 : v = 0
          · exact Or.inl h0
          · by_cases h1 : v = 1
            · exact Or.inr h1
            · exact absurd ⟨h0, h1⟩ hv
        · exact hl p hp
      · simp only [expand, List.flatMap_cons]
        rw [readVals_append, ← readRun_eq, hrun]
        exact hvs
    · rintro ⟨hc, ps, hb, hl, c', hvs⟩
      cases ps with
      | nil => simp [pairBytes] at hb
      | cons p ps =>
        simp only [pairBytes, List.flatMap_cons, List.cons_append, List.nil_append,
          List.cons.injEq] at hb
        obtain ⟨rfl, rfl, hb⟩ := hb
        simp only [expand, List.flatMap_cons] at hvs
        rw [readVals_append, ← readRun_eq, hrun] at hvs
        exact ⟨hc, ps, hb, fun q hq => hl q (List.mem_cons_of_mem _ hq), c', hvs⟩

theorem expand_length (ps : List (UInt8 × UInt8)) :
    (expand ps).length = (ps.map (fun p => p.2.toNat)).sum := by
  induction ps with
  | nil => rfl
  | cons p ps ih => simp only [expand, List.flatMap_cons, List.length_append, List.length_replicate,
      List.map_cons, List.sum_cons] at *; rw [ih]

theorem pairBytes_injective : Function.Injective pairBytes := by
  intro a b h
  induction a generalizing b with
  | nil => cases b with
    | nil => rfl
    | cons q b => simp [pairBytes] at h
  | cons p a ih => cases b with
    | nil => simp [pairBytes] at h
    | cons q b =>
      simp only [pairBytes, List.flatMap_cons, List.cons_append, List.nil_append,
        List.cons.injEq] at h
      rw [Prod.ext h.1 h.2.1, ih h.2.2]

/-- The whole data section in one statement. -/
theorem readData_start (r : Region) (h : Header F) (hnx : 0 ≤ h.nx) (clean : Bool) (bs : Bytes)
    (m' : WhiteVoxelMap) :
    readData r h clean bs ⟨0, 0, 0⟩ [] = some m' ↔ clean = true ∧ ∃ ps, bs = pairBytes ps ∧
      LegalPairs ps ∧ (expand ps).length ≤ capacity h ∧ m' = addVals r h (expand ps) 0 [] := by
  rw [readData_iff]
  constructor
  · rintro ⟨hc, ps, hb, hl, c', hv⟩
    refine ⟨hc, ps, hb, hl, ?_⟩
    rw [← cursorAt_zero h.ny h.nz, readVals_cursorAt r h hnx _ _ _ (Nat.zero_le _)] at hv
    split at hv
    · rename_i hlen; simp only [Nat.zero_add] at hlen
      simp only [Option.some.injEq, Prod.mk.injEq] at hv
      exact ⟨hlen, hv.2.symm⟩
    · cases hv
  · rintro ⟨hc, ps, hb, hl, hlen, hm⟩
    refine ⟨hc, ps, hb, hl, cursorAt h.ny h.nz (0 + (expand ps).length), ?_⟩
    rw [← cursorAt_zero h.ny h.nz, readVals_cursorAt r h hnx _ _ _ (Nat.zero_le _),
      if_pos (by omega), hm]

/-! ### Writing -/

/-- The values described by a list of runs. -/
def expandRuns (rs : List (UInt8 × Nat)) : List UInt8 :=
  rs.flatMap fun p => List.replicate p.2 p.1

/-- What `encodeStep` has accounted for. -/
def EncState.vals (s : EncState) : List UInt8 := expandRuns s.sent ++ List.replicate s.count s.value

theorem encodeStep_vals (m : WhiteVoxelMap) (s : EncState) (k : Key) :
    (encodeStep m s k).vals = s.vals ++ [if m.has k then 1 else 0] := by
  unfold encodeStep EncState.vals
  generalize hnv : (if m.has k = true then (1 : UInt8) else 0) = nv
  dsimp only
  split
  · rename_i hne
    simp only [List.replicate_one]
    split
    · simp [expandRuns]
    · have : s.count = 0 := by omega
      simp [this]
  · rename_i he
    simp only [ne_eq, Decidable.not_not] at he
    rw [he, List.replicate_succ', List.append_assoc]

theorem encode_foldl_vals (m : WhiteVoxelMap) (ks : List Key) (s : EncState) :
    (ks.foldl (encodeStep m) s).vals =
      s.vals ++ ks.map (fun k => if m.has k then (1 : UInt8) else 0) := by
  induction ks generalizing s with
  | nil => simp
  | cons k ks ih => simp only [List.foldl_cons, ih, encodeStep_vals]; simp

theorem encodeRuns_expand (m : WhiteVoxelMap) (r : Region) :
    expandRuns (encodeRuns m r) = (cells r).map (fun k => if m.has k then (1 : UInt8) else 0) := by
  have h := encode_foldl_vals m (cells r) ⟨0, 0, []⟩
  simp only [EncState.vals] at h
  have e : expandRuns [] ++ List.replicate 0 (0 : UInt8) = [] := rfl
  rw [e, List.nil_append] at h
  unfold encodeRuns
  simp only
  rw [← h]
  split
  · simp [expandRuns]
  · rename_i hc
    have : (List.foldl (encodeStep m) ⟨0, 0, []⟩ (cells r)).count = 0 := by omega
    rw [this]; simp

/-- The pairs written for one run. -/
def runPairs (run : UInt8 × Nat) : List (UInt8 × UInt8) :=
  List.replicate (run.2 / 255) (run.1, 255) ++
    (if run.2 % 255 > 0 then [(run.1, UInt8.ofNat (run.2 % 255))] else [])

theorem pairBytes_append (a b : List (UInt8 × UInt8)) :
    pairBytes (a ++ b) = pairBytes a ++ pairBytes b := by simp [pairBytes]

theorem expand_append (a b : List (UInt8 × UInt8)) :
    expand (a ++ b) = expand a ++ expand b := by simp [expand]

theorem pairBytes_replicate (n : Nat) (v c : UInt8) :
    pairBytes (List.replicate n (v, c)) = (List.replicate n [v, c]).flatten := by
  induction n with
  | zero => rfl
  | succ n ih => simp only [List.replicate_succ, List.flatten_cons, ← ih, pairBytes,
      List.flatMap_cons]

theorem runBytes_eq (run : UInt8 × Nat) : runBytes run = pairBytes (runPairs run) := by
  unfold runBytes runPairs
  rw [pairBytes_append, pairBytes_replicate]
  congr 1
  split <;> simp [pairBytes]

theorem runsBytes_eq (runs : List (UInt8 × Nat)) :
    runs.flatMap runBytes = pairBytes (runs.flatMap runPairs) := by
  induction runs with
  | nil => rfl
  | cons a l ih => simp only [List.flatMap_cons, ih, pairBytes_append, runBytes_eq]

theorem expand_replicate (n : Nat) (v : UInt8) :
    expand (List.replicate n (v, 255)) = List.replicate (255 * n) v := by
  induction n with
  | zero => rfl
  | succ n ih =>
    simp only [List.replicate_succ, expand, List.flatMap_cons] at *
    rw [ih]
    show List.replicate 255 v ++ _ = _
    rw [List.replicate_append_replicate]
    congr 1; omega

theorem toNat_ofNat_lt {n : Nat} (h : n < 256) : (UInt8.ofNat n).toNat = n := by
  rw [UInt8.toNat_ofNat']; exact Nat.mod_eq_of_lt h

theorem expand_runPairs (run : UInt8 × Nat) : expand (runPairs run) = List.replicate run.2 run.1 := by
  unfold runPairs
  rw [expand_append, expand_replicate]
  have hd := Nat.div_add_mod run.2 255
  split
  · have : (UInt8.ofNat (run.2 % 255)).toNat = run.2 % 255 := toNat_ofNat_lt (by omega)
    simp only [expand, List.flatMap_cons, List.flatMap_nil, List.append_nil, this]
    rw [List.replicate_append_replicate, hd]
  · have : run.2 % 255 = 0 := by omega
    simp only [expand, List.flatMap_nil, List.append_nil]
    congr 1; omega

theorem expand_runsPairs (runs : List (UInt8 × Nat)) :
    expand (runs.flatMap runPairs) = expandRuns runs := by
  induction runs with
  | nil => rfl
  | cons a l ih => simp only [List.flatMap_cons, expand_append, ih, expand_runPairs, expandRuns]

/-- Counts of the pairs of a run lie in 1..255. -/
theorem runPairs_counts (run : UInt8 × Nat) : ∀ p ∈ runPairs run, p.1 = run.1 ∧ p.2 ≠ 0 := by
  intro p hp
  unfold runPairs at hp
  rcases List.mem_append.mp hp with hp | hp
  · have := List.eq_of_mem_replicate hp; subst this; exact ⟨rfl, by simp⟩
  · split at hp
    · rename_i hr
      simp only [List.mem_singleton] at hp; subst hp
      refine ⟨rfl, ?_⟩
      intro e
      have := congrArg UInt8.toNat e
      rw [toNat_ofNat_lt (by omega)] at this
      simp at this; omega
    · simp at hp

/-- Invariant of the encoder: runs alternate, counts are positive. -/
def EncInv (s : EncState) : Prop :=
  (s.value = 0 ∨ s.value = 1) ∧ (∀ p ∈ s.sent, (p.1 = 0 ∨ p.1 = 1) ∧ 0 < p.2) ∧
  List.IsChain (fun a b : UInt8 × Nat => a.1 ≠ b.1) (s.sent ++ [(s.value, s.count)]) ∧
  (s.count = 0 → s.sent = [])

theorem encodeStep_inv (m : WhiteVoxelMap) (s : EncState) (k : Key) (h : EncInv s) :
    EncInv (encodeStep m s k) := by
  obtain ⟨h1, h2, h3, h4⟩ := h
  unfold encodeStep
  have hnv1 : (if m.has k = true then (1 : UInt8) else 0) = 0 ∨
      (if m.has k = true then (1 : UInt8) else 0) = 1 := by split <;> simp
  generalize hnv : (if m.has k = true then (1 : UInt8) else 0) = nv at hnv1
  dsimp only
  split
  · rename_i hne
    refine ⟨hnv1, ?_, ?_, ?_⟩
    · dsimp only
      split
      · rename_i hc
        intro p hp
        rcases List.mem_append.mp hp with hp | hp
        · exact h2 p hp
        · simp only [List.mem_singleton] at hp; subst hp; exact ⟨h1, hc⟩
      · exact h2
    · dsimp only
      split
      · rw [List.isChain_append]
        refine ⟨h3, List.isChain_singleton _, ?_⟩
        intro x hx y hy
        simp only [List.getLast?_append, List.getLast?_singleton, Option.mem_def, Option.some_or,
          Option.some.injEq, List.head?_cons] at hx hy
        subst hx hy
        exact fun e => hne e.symm
      · rename_i hc
        rw [h4 (by omega)]; exact List.isChain_singleton _
    · simp
  · refine ⟨h1, h2, ?_, by simp⟩
    dsimp only
    rw [List.isChain_append] at h3 ⊢
    refine ⟨h3.1, List.isChain_singleton _, ?_⟩
    intro x hx y hy
    simp only [List.head?_cons, Option.mem_def, Option.some.injEq] at hy
    subst hy
    exact h3.2.2 x hx (s.value, s.count) (by simp)

theorem encode_foldl_inv (m : WhiteVoxelMap) (ks : List Key) (s : EncState) (h : EncInv s) :
    EncInv (ks.foldl (encodeStep m) s) := by
  induction ks generalizing s with
  | nil => exact h
  | cons k ks ih => exact ih _ (encodeStep_inv m s k h)

theorem encodeRuns_inv (m : WhiteVoxelMap) (r : Region) :
    (∀ p ∈ encodeRuns m r, (p.1 = 0 ∨ p.1 = 1) ∧ 0 < p.2) ∧
      List.IsChain (fun a b : UInt8 × Nat => a.1 ≠ b.1) (encodeRuns m r) := by
  have h := encode_foldl_inv m (cells r) ⟨0, 0, []⟩
    ⟨Or.inl rfl, by simp, List.isChain_singleton _, by simp⟩
  obtain ⟨h1, h2, h3, h4⟩ := h
  unfold encodeRuns
  simp only
  split
  · rename_i hc
    refine ⟨?_, h3⟩
    intro p hp
    rcases List.mem_append.mp hp with hp | hp
    · exact h2 p hp
    · simp only [List.mem_singleton] at hp; subst hp; exact ⟨h1, hc⟩
  · refine ⟨h2, (List.isChain_append.mp h3).1⟩

theorem legal_runsPairs (m : WhiteVoxelMap) (r : Region) :
    LegalPairs ((encodeRuns m r).flatMap runPairs) := by
  intro p hp
  obtain ⟨run, hrun, hp⟩ := List.mem_flatMap.mp hp
  have := (encodeRuns_inv m r).1 run hrun
  have hc := runPairs_counts run p hp
  rw [hc.1]; exact ⟨this.1, hc.2⟩

/-- Canonical form: adjacent pairs with the same value only after a full 255. -/
theorem canonical_runsPairs (runs : List (UInt8 × Nat)) (h0 : ∀ p ∈ runs, 0 < p.2)
    (h : List.IsChain (fun a b : UInt8 × Nat => a.1 ≠ b.1) runs) :
    List.IsChain (fun a b : UInt8 × UInt8 => a.1 = b.1 → a.2 = 255) (runs.flatMap runPairs) := by
  have hone : ∀ run : UInt8 × Nat,
      List.IsChain (fun a b : UInt8 × UInt8 => a.1 = b.1 → a.2 = 255) (runPairs run) := by
    intro run
    unfold runPairs
    rw [List.isChain_append]
    refine ⟨?_, ?_, ?_⟩
    · generalize run.2 / 255 = n
      induction n with
      | zero => exact List.isChain_nil
      | succ n ih =>
        rw [List.replicate_succ]
        cases n with
        | zero => exact List.isChain_singleton _
        | succ n => rw [List.replicate_succ]; rw [List.replicate_succ] at ih
                    exact List.isChain_cons_cons.mpr ⟨fun _ => rfl, ih⟩
    · split
      · exact List.isChain_singleton _
      · exact List.isChain_nil
    · intro x hx y hy _
      have hx := List.mem_of_getLast? hx
      have := List.eq_of_mem_replicate hx; subst this; rfl
  have hne : ∀ run : UInt8 × Nat, 0 < run.2 → runPairs run ≠ [] := by
    intro run hr e
    have := congrArg (fun l => (expand l).length) e
    simp only [expand_runPairs, List.length_replicate] at this
    simp [expand] at this; omega
  induction runs with
  | nil => exact List.isChain_nil
  | cons a l ih =>
    simp only [List.flatMap_cons]
    rw [List.isChain_append]
    refine ⟨hone a, ih (fun p hp => h0 p (List.mem_cons_of_mem _ hp)) (List.IsChain.tail h), ?_⟩
    intro x hx y hy hxy
    exfalso
    have hx := runPairs_counts a x (List.mem_of_getLast? hx)
    cases l with
    | nil => simp at hy
    | cons b l =>
      have hab := (List.isChain_cons_cons.mp h).1
      have hb := hne b (h0 b (by simp))
      simp only [List.flatMap_cons] at hy
      rw [List.head?_append_of_ne_nil _ hb] at hy
      have hy := runPairs_counts b y (List.mem_of_head? hy)
      exact hab (by rw [← hx.1, hxy, hy.1])

/-- The number of ones counted by the writer. -/
theorem numWhite_eq (runs : List (UInt8 × Nat)) :
    (runs.map (fun v => if v.1 = 1 then (v.2 : Int) else 0)).sum =
      ((expandRuns runs).count 1 : Nat) := by
  induction runs with
  | nil => rfl
  | cons a l ih =>
    simp only [List.map_cons, List.sum_cons, ih, expandRuns, List.flatMap_cons, List.count_append,
      List.count_replicate]
    by_cases h : a.1 = 1
    · simp [h]
    · have : ¬ ((a.1 == 1) = true) := by simpa using h
      simp [h]

end StlDice
