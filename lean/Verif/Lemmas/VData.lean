import Verif.Spec.VFormat
import Verif.Lemmas.KeyAt

/-! Lemmas about the record data of vsh files. -/

namespace StlDice
open Spec
variable {F : Type}

theorem isSpecial_iff (v : BitVec 32) : isSpecial v = true ↔ Special v := by
  simp [isSpecial, Special]

theorem fromLe32_le32 (v : BitVec 32) : ∃ a b c d, le32 v = [a, b, c, d] ∧ fromLe32 a b c d = v := by
  refine ⟨_, _, _, _, rfl, ?_⟩
  unfold fromLe32
  rw [toNat_ofNat_lt (Nat.mod_lt _ (by decide)), toNat_ofNat_lt (Nat.mod_lt _ (by decide)),
    toNat_ofNat_lt (Nat.mod_lt _ (by decide)), toNat_ofNat_lt (Nat.mod_lt _ (by decide))]
  apply BitVec.eq_of_toNat_eq
  rw [BitVec.toNat_ofNat]
  have := v.isLt
  omega

theorem ofNat_eq_of_toNat {a : UInt8} {n : Nat} (h : n % 256 = a.toNat) : UInt8.ofNat n = a := by
  apply UInt8.toNat_inj.mp
  rw [UInt8.toNat_ofNat']; exact h

theorem le32_fromLe32 (a b c d : UInt8) : le32 (fromLe32 a b c d) = [a, b, c, d] := by
  have ha := a.toNat_lt
  have hb := b.toNat_lt
  have hc := c.toNat_lt
  have hd := d.toNat_lt
  have hn : (fromLe32 a b c d).toNat =
      a.toNat + 256 * b.toNat + 65536 * c.toNat + 16777216 * d.toNat := by
    unfold fromLe32
    rw [BitVec.toNat_ofNat]
    exact Nat.mod_eq_of_lt (by omega)
  unfold le32
  rw [hn]
  rw [ofNat_eq_of_toNat (a := a) (by omega), ofNat_eq_of_toNat (a := b) (by omega),
    ofNat_eq_of_toNat (a := c) (by omega), ofNat_eq_of_toNat (a := d) (by omega)]

theorem le16_fromLe16 (a b : UInt8) : le16 (fromLe16 a b) = [a, b] := by
  have ha := a.toNat_lt
  have hb := b.toNat_lt
  unfold le16 fromLe16
  rw [ofNat_eq_of_toNat (a := a) (by omega), ofNat_eq_of_toNat (a := b) (by omega)]

theorem fromLe16_le16 {n : Nat} (h : n < 65536) : ∃ a b, le16 n = [a, b] ∧ fromLe16 a b = n := by
  refine ⟨_, _, rfl, ?_⟩
  unfold fromLe16
  rw [toNat_ofNat_lt (Nat.mod_lt _ (by decide)), toNat_ofNat_lt (Nat.mod_lt _ (by decide))]
  omega

theorem fromLe16_lt (a b : UInt8) : fromLe16 a b < 65536 := by
  have ha := a.toNat_lt
  have hb := b.toNat_lt
  unfold fromLe16; omega

/-- A record is read iff the bytes start with it. -/
theorem vshNext_record_iff (clean : Bool) (bs rest : Bytes) (v : BitVec 32) (n : Nat) :
    vshNext clean bs = .record v n rest ↔ bs = recBytes (v, n) ++ rest ∧ LegalRec (v, n) := by
  constructor
  · intro h
    unfold vshNext at h
    split at h
    · split at h <;> cases h
    · rename_i a b c d rest'
      split at h
      · rename_i hs
        rw [isSpecial_iff] at hs
        split at h
        · rename_i lo hi rest''
          cases h
          refine ⟨?_, ?_⟩
          · simp only [recBytes, le32_fromLe32, hs, if_true, le16_fromLe16]; rfl
          · simp only [LegalRec, hs, if_true]; exact fromLe16_lt _ _
        · cases h
      · rename_i hs
        rw [isSpecial_iff] at hs
        split at h
        · rename_i m rest''
          split at h
          · cases h
          · rename_i hm
            cases h
            refine ⟨?_, ?_⟩
            · simp only [recBytes, le32_fromLe32, hs, if_false]
              rw [ofNat_eq_of_toNat (a := m) (by have := m.toNat_lt; omega)]; rfl
            · simp only [LegalRec, hs, if_false]
              have := m.toNat_lt
              have : m.toNat ≠ 0 := fun e => hm (UInt8.toNat_inj.mp e)
              omega
        · cases h
    · cases h
  · rintro ⟨rfl, hl⟩
    obtain ⟨a, b, c, d, he, hv⟩ := fromLe32_le32 v
    unfold LegalRec at hl
    by_cases hs : Special v
    · simp only [hs, if_true] at hl
      obtain ⟨lo, hi, h2, hn⟩ := fromLe16_le16 hl
      simp only [recBytes, hs, if_true, he, h2, List.cons_append, List.nil_append, vshNext, hv, hn,
        (isSpecial_iff v).mpr hs]
    · simp only [hs, if_false] at hl
      have hs' : isSpecial v = false := by
        rw [← Bool.not_eq_true, isSpecial_iff]; exact hs
      have e := toNat_ofNat_lt (n := n) (by omega)
      have e0 : UInt8.ofNat n ≠ 0 := by
        intro e1; rw [e1] at e; have : (0 : UInt8).toNat = 0 := rfl
        omega
      simp only [recBytes, hs, if_false, he, List.cons_append, List.nil_append, vshNext, hv, hs',
        Bool.false_eq_true, e0, e]

theorem vshNext_eof_iff (clean : Bool) (bs : Bytes) :
    vshNext clean bs = .eof ↔ bs = [] ∧ clean = true := by
  unfold vshNext
  split
  · cases clean <;> simp
  · simp only [reduceCtorEq, false_and, iff_false]
    split
    · split <;> simp
    · split
      · split <;> simp
      · simp
  · rename_i h1 h2
    simp only [reduceCtorEq, false_iff, not_and]
    intro h; exact absurd h h1

/-- The reader on expanded values. -/
def vReadVals (r : Region) (h : Header F) :
    List (BitVec 32) → Cursor → List VShVoxel → Option (Cursor × List VShVoxel)
  | [], c, m => some (c, m)
  | v :: vs, c, m =>
    if c.xi ≥ h.nx then none
    else vReadVals r h vs (c.next h.ny h.nz)
      (if !isSpecial v && inRegion r h c then m ++ [⟨c.xi, c.yi, c.zi, v⟩] else m)

theorem vshReadRun_eq (r : Region) (h : Header F) (v : BitVec 32) (n : Nat) (c : Cursor)
    (m : List VShVoxel) : vshReadRun r h v n c m = vReadVals r h (List.replicate n v) c m := by
  induction n generalizing c m with
  | zero => rfl
  | succ n ih => simp only [vshReadRun, List.replicate_succ, vReadVals, ih]

theorem vReadVals_append (r : Region) (h : Header F) (a b : List (BitVec 32)) (c : Cursor)
    (m : List VShVoxel) :
    vReadVals r h (a ++ b) c m =
      match vReadVals r h a c m with
      | none => none
      | some (c, m) => vReadVals r h b c m := by
  induction a generalizing c m with
  | nil => rfl
  | cons v a ih =>
    simp only [List.cons_append, vReadVals]
    split
    · rfl
    · exact ih _ _

theorem vshReadData_iff (r : Region) (h : Header F) (clean : Bool) (bs : Bytes) (c : Cursor)
    (m m' : List VShVoxel) :
    vshReadData r h clean bs c m = some m' ↔ clean = true ∧ ∃ ps, bs = recsBytes ps ∧ LegalRecs ps ∧
      ∃ c', vReadVals r h (expandV ps) c m = some (c', m') := by
  induction hlen : bs.length using Nat.strong_induction_on generalizing bs c m with
  | _ len ih =>
  rw [vshReadData]
  split
  · rename_i hn
    obtain ⟨rfl, hc⟩ := (vshNext_eof_iff clean bs).mp hn
    constructor
    · intro hh; cases hh
      exact ⟨hc, [], rfl, by simp [LegalRecs], c, rfl⟩
    · rintro ⟨_, ps, hb, hl, c', hv⟩
      cases ps with
      | nil => simp only [expandV, List.flatMap_nil, vReadVals, Option.some.injEq, Prod.mk.injEq] at hv
               rw [hv.2]
      | cons p ps => simp [recsBytes, recBytes, le32] at hb
  · rename_i hn
    constructor
    · intro hh; cases hh
    · rintro ⟨hc, ps, hb, hl, c', hv⟩
      cases ps with
      | nil =>
        have := (vshNext_eof_iff clean bs).mpr ⟨hb, hc⟩
        rw [this] at hn; cases hn
      | cons p ps =>
        have := (vshNext_record_iff clean bs (recsBytes ps) p.1 p.2).mpr
          ⟨hb, hl p (by simp)⟩
        rw [this] at hn; cases hn
  · rename_i v n rest hn
    have hlt := vshNext_length hn
    obtain ⟨hb, hl⟩ := (vshNext_record_iff clean bs rest v n).mp hn
    have key : ∀ ps, bs = recsBytes ps → LegalRecs ps →
        ∃ qs, ps = (v, n) :: qs ∧ rest = recsBytes qs := by
      intro ps hps hleg
      cases ps with
      | nil => rw [hps] at hlt; simp [recsBytes] at hlt
      | cons p ps =>
        have := (vshNext_record_iff clean bs (recsBytes ps) p.1 p.2).mpr ⟨hps, hleg p (by simp)⟩
        rw [this] at hn
        cases hn
        exact ⟨ps, rfl, rfl⟩
    split
    · rename_i hrun
      constructor
      · intro hh; cases hh
      · rintro ⟨hc, ps, hps, hleg, c', hv⟩
        obtain ⟨qs, rfl, _⟩ := key ps hps hleg
        simp only [expandV, List.flatMap_cons] at hv
        rw [vReadVals_append, ← vshReadRun_eq, hrun] at hv
        cases hv
    · rename_i c2 m2 hrun
      rw [ih rest.length (by omega) rest c2 m2 rfl]
      constructor
      · rintro ⟨hc, ps, hps, hleg, c', hv⟩
        refine ⟨hc, (v, n) :: ps, ?_, ?_, c', ?_⟩
        · rw [hb, hps]; rfl
        · intro p hp
          rcases List.mem_cons.mp hp with rfl | hp
          · exact hl
          · exact hleg p hp
        · simp only [expandV, List.flatMap_cons]
          rw [vReadVals_append, ← vshReadRun_eq, hrun]; exact hv
      · rintro ⟨hc, ps, hps, hleg, c', hv⟩
        obtain ⟨qs, rfl, hr⟩ := key ps hps hleg
        simp only [expandV, List.flatMap_cons] at hv
        rw [vReadVals_append, ← vshReadRun_eq, hrun] at hv
        exact ⟨hc, qs, hr, fun p hp => hleg p (List.mem_cons_of_mem _ hp), c', hv⟩

/-- Records are a prefix code: the decomposition is unique. -/
theorem recsBytes_injective {a b : List (BitVec 32 × Nat)} (ha : LegalRecs a) (hb : LegalRecs b)
    (h : recsBytes a = recsBytes b) : a = b := by
  induction a generalizing b with
  | nil => cases b with
    | nil => rfl
    | cons q b => simp [recsBytes, recBytes, le32] at h
  | cons p a ih => cases b with
    | nil => simp [recsBytes, recBytes, le32] at h
    | cons q b =>
      have h1 := (vshNext_record_iff true (recsBytes (p :: a)) (recsBytes a) p.1 p.2).mpr
        ⟨rfl, ha p (by simp)⟩
      have h2 := (vshNext_record_iff true (recsBytes (q :: b)) (recsBytes b) q.1 q.2).mpr
        ⟨rfl, hb q (by simp)⟩
      rw [h, h2] at h1
      injection h1 with e1 e2 e3
      have e : q = p := Prod.ext e1 e2
      rw [e, ih (fun p hp => ha p (List.mem_cons_of_mem _ hp))
          (fun p hp => hb p (List.mem_cons_of_mem _ hp)) e3.symm]

/-- If the records of `a` are a byte prefix of those of `b`, then `a` is a prefix of `b`. -/
theorem recsBytes_prefix {a b : List (BitVec 32 × Nat)} (ha : LegalRecs a) (hb : LegalRecs b)
    {rest : Bytes} (h : recsBytes a ++ rest = recsBytes b) : a <+: b := by
  induction a generalizing b with
  | nil => exact List.nil_prefix
  | cons p a ih => cases b with
    | nil => simp [recsBytes, recBytes, le32] at h
    | cons q b =>
      have h1 := (vshNext_record_iff true (recsBytes (p :: a) ++ rest) (recsBytes a ++ rest) p.1 p.2).mpr
        ⟨by simp [recsBytes], ha p (by simp)⟩
      have h2 := (vshNext_record_iff true (recsBytes (q :: b)) (recsBytes b) q.1 q.2).mpr
        ⟨rfl, hb q (by simp)⟩
      rw [h, h2] at h1
      injection h1 with e1 e2 e3
      have e : q = p := Prod.ext e1 e2
      rw [e, List.cons_prefix_cons]
      exact ⟨rfl, ih (fun p hp => ha p (List.mem_cons_of_mem _ hp))
          (fun p hp => hb p (List.mem_cons_of_mem _ hp)) e3.symm⟩

/-- The voxels found when reading values from index `i` on. -/
def vAddVals (r : Region) (h : Header F) : List (BitVec 32) → Nat → List VShVoxel
  | [], _ => []
  | v :: vs, i =>
    let c := cursorAt h.ny h.nz i
    (if !isSpecial v && inRegion r h c then [⟨c.xi, c.yi, c.zi, v⟩] else []) ++ vAddVals r h vs (i + 1)

theorem vReadVals_cursorAt (r : Region) (h : Header F) (hnx : 0 ≤ h.nx) (vs : List (BitVec 32)) (i : Nat)
    (m : List VShVoxel) (hi : i ≤ capacity h) :
    vReadVals r h vs (cursorAt h.ny h.nz i) m =
      if i + vs.length ≤ capacity h then
        some (cursorAt h.ny h.nz (i + vs.length), m ++ vAddVals r h vs i) else none := by
  induction vs generalizing i m with
  | nil => simp [vReadVals, vAddVals, hi]
  | cons v vs ih =>
    simp only [vReadVals]
    have hx := cursorAt_x_lt h.ny h.nz h.nx hnx i
    rw [← capacity_eq] at hx
    by_cases hc : i < capacity h
    · have : ¬ (cursorAt h.ny h.nz i).xi ≥ h.nx := by have := hx.mpr hc; omega
      rw [if_neg this, cursorAt_next, ih _ _ (by omega)]
      simp only [vAddVals, List.length_cons]
      have e : i + 1 + vs.length = i + (vs.length + 1) := by omega
      rw [e]
      split
      · split
        · simp
        · simp
      · rfl
    · have : (cursorAt h.ny h.nz i).xi ≥ h.nx := by
        by_contra hh; exact hc (hx.mp (by omega))
      rw [if_pos this, if_neg]
      simp only [List.length_cons]; omega

theorem vAddVals_append (r : Region) (h : Header F) (a b : List (BitVec 32)) (i : Nat) :
    vAddVals r h (a ++ b) i = vAddVals r h a i ++ vAddVals r h b (i + a.length) := by
  induction a generalizing i with
  | nil => simp [vAddVals]
  | cons v a ih =>
    simp only [List.cons_append, vAddVals, ih, List.append_assoc, List.length_cons]
    rw [show i + 1 + a.length = i + (a.length + 1) from by omega]

theorem mem_vAddVals (r : Region) (h : Header F) (vs : List (BitVec 32)) (i : Nat) (w : VShVoxel) :
    w ∈ vAddVals r h vs i ↔ ¬ Special w.N ∧ inRegion r h ⟨w.X, w.Y, w.Z⟩ = true ∧
      ∃ j, vs[j]? = some w.N ∧ keyAt (effDim h.ny) (effDim h.nz) (i + j) = w.key := by
  induction vs generalizing i with
  | nil => simp [vAddVals]
  | cons v vs ih =>
    simp only [vAddVals, List.mem_append, ih]
    constructor
    · rintro (h1 | ⟨h1, h2, j, h3, h4⟩)
      · split at h1
        · rename_i hc
          simp only [Bool.and_eq_true, Bool.not_eq_true'] at hc
          simp only [List.mem_singleton] at h1
          subst h1
          refine ⟨?_, hc.2, 0, rfl, rfl⟩
          rw [← isSpecial_iff]; simp [hc.1]
        · simp at h1
      · exact ⟨h1, h2, j + 1, by simpa using h3, by rw [← h4]; congr 1; omega⟩
    · rintro ⟨h1, h2, j, h3, h4⟩
      cases j with
      | zero =>
        left
        simp only [List.getElem?_cons_zero, Option.some.injEq] at h3
        have hk : (cursorAt h.ny h.nz i) = ⟨w.X, w.Y, w.Z⟩ := by
          have : keyAt (effDim h.ny) (effDim h.nz) i = w.key := by simpa using h4
          unfold cursorAt; rw [this]; rfl
        have hs : isSpecial v = false := by
          rw [← Bool.not_eq_true, isSpecial_iff, h3]; exact h1
        rw [hk, h2, hs, h3]
        simp
      | succ j =>
        right
        exact ⟨h1, h2, j, by simpa using h3, by rw [← h4]; congr 1; omega⟩

theorem vAddVals_nodup (r : Region) (h : Header F) (vs : List (BitVec 32)) (i : Nat) :
    ((vAddVals r h vs i).map VShVoxel.key).Nodup := by
  induction vs generalizing i with
  | nil => simp [vAddVals]
  | cons v vs ih =>
    simp only [vAddVals, List.map_append]
    rw [List.nodup_append]
    refine ⟨?_, ih _, ?_⟩
    · split <;> simp
    · intro a ha b hb
      have ha' : a = keyAt (effDim h.ny) (effDim h.nz) i := by
        split at ha
        · simp only [List.map_cons, List.map_nil, List.mem_singleton] at ha
          rw [ha]; rfl
        · simp at ha
      obtain ⟨w, hw, rfl⟩ := List.mem_map.mp hb
      obtain ⟨_, _, j, _, hj⟩ := (mem_vAddVals r h vs (i + 1) w).mp hw
      rw [ha', ← hj]
      intro he
      have := keyAt_inj (effDim_pos _) (effDim_pos _) he
      omega

theorem vshReadData_start (r : Region) (h : Header F) (hnx : 0 ≤ h.nx) (clean : Bool) (bs : Bytes)
    (m' : List VShVoxel) :
    vshReadData r h clean bs ⟨0, 0, 0⟩ [] = some m' ↔ clean = true ∧ ∃ ps, bs = recsBytes ps ∧
      LegalRecs ps ∧ (expandV ps).length ≤ capacity h ∧ m' = vAddVals r h (expandV ps) 0 := by
  rw [vshReadData_iff]
  constructor
  · rintro ⟨hc, ps, hb, hl, c', hv⟩
    refine ⟨hc, ps, hb, hl, ?_⟩
    rw [← cursorAt_zero h.ny h.nz, vReadVals_cursorAt r h hnx _ _ _ (Nat.zero_le _)] at hv
    split at hv
    · rename_i hlen; simp only [Nat.zero_add] at hlen
      simp only [Option.some.injEq, Prod.mk.injEq, List.nil_append] at hv
      exact ⟨hlen, hv.2.symm⟩
    · cases hv
  · rintro ⟨hc, ps, hb, hl, hlen, hm⟩
    refine ⟨hc, ps, hb, hl, cursorAt h.ny h.nz (0 + (expandV ps).length), ?_⟩
    rw [← cursorAt_zero h.ny h.nz, vReadVals_cursorAt r h hnx _ _ _ (Nat.zero_le _),
      if_pos (by omega), hm, List.nil_append]

theorem isLine_vshMagic : IsLine vshMagic := ⟨ascii "#vshell 1", by decide, by decide⟩

/-- The shell returned for a header and a list of voxels. -/
def mkShell (h : Header F) (vs : List VShVoxel) : VShell F :=
  { NX := h.nx, NY := h.ny, NZ := h.nz, TX := h.tx, TY := h.ty, TZ := h.tz,
    Scale := h.scale, Voxels := vs }

/-- Complete description of the vsh reader. -/
theorem vsh_read_iff [FloatText F] (inp : Input) (r : Region) (b : VShell F) :
    VShell.read inp r = some b ↔
      r.nonneg = true ∧ inp.clean = true ∧ ∃ (h : Header F) (hb : Bytes) (ps : List (BitVec 32 × Nat)),
        inp.bytes = hb ++ recsBytes ps ∧ IsHeader vshMagic h hb ∧
        (r.sx ≤ h.nx ∧ r.sy ≤ h.ny ∧ r.sz ≤ h.nz) ∧ LegalRecs ps ∧
        (expandV ps).length ≤ capacity h ∧ b = mkShell h (vAddVals r h (expandV ps) 0) := by
  unfold VShell.read
  constructor
  · intro hr
    split at hr
    · cases hr
    rename_i hn
    split at hr
    · cases hr
    rename_i h rest hh
    split at hr
    · cases hr
    rename_i m hm
    obtain ⟨⟨hb, he, hhead⟩, hs⟩ := isHeader_of hh
    obtain ⟨hc, ps, hps, hl, hlen, hm⟩ := (vshReadData_start r h (isHeader_nonneg hhead).1 _ _ _).mp hm
    refine ⟨by simpa using hn, hc, h, hb, ps, by rw [he, hps], hhead, hs, hl, hlen, ?_⟩
    cases hr; rw [hm]; rfl
  · rintro ⟨hn, hc, h, hb, ps, he, hhead, hs, hl, hlen, rfl⟩
    have hd := (vshReadData_start r h (isHeader_nonneg hhead).1 inp.clean (recsBytes ps) _).mpr
      ⟨hc, ps, rfl, hl, hlen, rfl⟩
    rw [he, readHeader_of isLine_vshMagic hhead (by omega)]
    simp only [hn, Bool.not_true, Bool.false_eq_true, if_false, hd]
    rfl

end StlDice
