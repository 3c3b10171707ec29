import Verif.Model.Strings
import Verif.Spec.Strings
import Verif.Props.MbbText
import Verif.Props.FloatFiles
import Verif.Props.MrCmd
import Verif.Props.Manifold
import Mathlib.Tactic.Ring

/-! # The `String` methods (C100) -/

namespace StlDice
open Spec

theorem joinWith_eq (sep : Bytes) : ∀ l, joinWith sep l = List.intercalate sep l
  | [] => by simp [joinWith, List.intercalate]
  | [w] => by simp [joinWith, List.intercalate]
  | w :: v :: l => by
    have h := joinWith_eq sep (v :: l)
    simp only [List.intercalate, List.intersperse] at h ⊢
    rw [joinWith, h]
    · simp
    · nofun

/-! ## Formats -/

/-- Every `%v` of the format is followed by a byte at which reading stops. -/
def Stops (stop : UInt8 → Bool) : Bytes → Bool
  | 37 :: 118 :: c :: f => stop c && Stops stop (c :: f)
  | [37, 118] => false
  | _ :: f => Stops stop f
  | [] => true

/-- The number of `%v` in the format. -/
def verbs : Bytes → Nat
  | 37 :: 118 :: f => verbs f + 1
  | _ :: f => verbs f
  | [] => 0

theorem word_read {stop : UInt8 → Bool} : ∀ {a b : Bytes} {c c' : UInt8} {r r' : Bytes}, (∀ x ∈ a, stop x = false) →
    (∀ x ∈ b, stop x = false) → stop c = true → stop c' = true → a ++ c :: r = b ++ c' :: r' → a = b ∧ c :: r = c' :: r'
  | [], [], _, _, _, _, _, _, _, _, h => ⟨rfl, h⟩
  | [], y :: b, c, c', r, r', _, hb, hc, _, h => by
    rw [List.nil_append, List.cons_append] at h
    injection h with h1 h2
    rw [h1, hb y List.mem_cons_self] at hc
    cases hc
  | x :: a, [], c, c', r, r', ha, _, _, hc', h => by
    rw [List.nil_append, List.cons_append] at h
    injection h with h1 h2
    rw [← h1, ha x List.mem_cons_self] at hc'
    cases hc'
  | x :: a, y :: b, c, c', r, r', ha, hb, hc, hc', h => by
    rw [List.cons_append, List.cons_append] at h
    injection h with h1 h2
    obtain ⟨e1, e2⟩ := word_read (fun z hz => ha z (List.mem_cons_of_mem _ hz)) (fun z hz => hb z (List.mem_cons_of_mem _ hz)) hc hc' h2
    exact ⟨by rw [h1, e1], e2⟩

theorem sprintf_lit {c : UInt8} {f : Bytes} (h : ∀ g, c :: f ≠ 37 :: 118 :: g) (ws : List Bytes) :
    sprintf (c :: f) ws = c :: sprintf f ws := by
  rw [sprintf.eq_def]
  split
  · rename_i heq
    exact absurd heq (h _)
  · rename_i heq _; injection heq with e1 e2; rw [e1, e2]
  · rename_i heq; cases heq

/-- The arguments can be read back from the text. -/
theorem sprintf_read {stop : UInt8 → Bool} (h37 : stop 37 = false) : ∀ (f : Bytes) {ws ws' : List Bytes}, Stops stop f = true →
    ws.length = verbs f → ws'.length = verbs f → (∀ w ∈ ws, ∀ c ∈ w, stop c = false) → (∀ w ∈ ws', ∀ c ∈ w, stop c = false) →
    sprintf f ws = sprintf f ws' → ws = ws'
  | [], ws, ws', _, h, h', _, _, _ => by
    rw [List.eq_nil_of_length_eq_zero h, List.eq_nil_of_length_eq_zero h']
  | [c], ws, ws', _, h, h', _, _, _ => by
    have : verbs [c] = 0 := by
      rw [verbs.eq_def]
      split
      · rename_i e; cases e
      · rename_i e; injection e with _ e; rw [← e]; rfl
      · rename_i e; cases e
    rw [this] at h h'
    rw [List.eq_nil_of_length_eq_zero h, List.eq_nil_of_length_eq_zero h']
  | c :: d :: f, ws, ws', hs, h, h', hw, hw', e => by
    by_cases hv : c = 37 ∧ d = 118
    · obtain ⟨rfl, rfl⟩ := hv
      cases f with
      | nil => cases hs
      | cons a f =>
        rw [Stops, Bool.and_eq_true] at hs
        rw [verbs] at h h'
        match ws, ws', h, h', hw, hw', e with
        | w :: ws, w' :: ws', h, h', hw, hw', e =>
          rw [sprintf, sprintf] at e
          have hl : ∀ g, a :: f ≠ 37 :: 118 :: g := by
            intro g eg
            injection eg with eg _
            rw [eg, h37] at hs
            cases hs.1
          rw [sprintf_lit hl, sprintf_lit hl] at e
          obtain ⟨e1, e2⟩ := word_read (hw w List.mem_cons_self) (hw' w' List.mem_cons_self) hs.1 hs.1 e
          rw [← sprintf_lit hl, ← sprintf_lit hl] at e2
          rw [e1, sprintf_read h37 (a :: f) hs.2 (by simpa using h) (by simpa using h')
            (fun x hx => hw x (List.mem_cons_of_mem _ hx)) (fun x hx => hw' x (List.mem_cons_of_mem _ hx)) e2]
    · have hl : ∀ g, c :: d :: f ≠ 37 :: 118 :: g := by
        intro g eg
        injection eg with e1 e2
        injection e2 with e2 _
        exact hv ⟨e1, e2⟩
      rw [sprintf_lit hl, sprintf_lit hl] at e
      injection e with _ e
      have hs' : Stops stop (d :: f) = true := by
        rw [Stops.eq_def] at hs
        split at hs
        · rename_i e'; exact absurd e' (hl _)
        · cases hs
        · rename_i e'; injection e' with _ e'; rw [e']; exact hs
        · rename_i e'; cases e'
      have hv' : verbs (c :: d :: f) = verbs (d :: f) := by
        rw [verbs.eq_def]
        split
        · rename_i e'; exact absurd e' (hl _)
        · rename_i e'; injection e' with _ e'; rw [e']
        · rename_i e'; cases e'
      rw [hv'] at h h'
      exact sprintf_read h37 (d :: f) hs' h h' hw hw' e
termination_by f => f.length

/-! ## Hexadecimal numbers -/

theorem hexDigit_all : ∀ d < 16, (ascii "0123456789ABCDEF")[d]? = some (hexDigit d) := by decide

theorem hexDigit_is {d : Nat} (h : d < 16) : IsDigitOf 16 (hexDigit d) d := ⟨h, Or.inr (hexDigit_all d h)⟩

theorem hexRev_text : ∀ (fuel n : Nat), n < fuel → DigitText 16 (hexDigitsRev fuel n).reverse n
  | 0, _, h => absurd h (Nat.not_lt_zero _)
  | fuel + 1, n, h => by
    rw [hexDigitsRev]
    split
    · rename_i h16
      exact .one (hexDigit_is h16)
    · rename_i h16
      rw [List.reverse_cons]
      have := DigitText.digit (hexRev_text fuel (n / 16) (by omega)) (hexDigit_is (Nat.mod_lt n (by decide : 0 < 16)))
      rwa [show n / 16 * 16 + n % 16 = n by omega] at this

theorem fmtHex_text (n : Nat) : DigitText 16 (fmtHex n) n := hexRev_text _ _ (by omega)

theorem hexDigit_small : ∀ d < 16, hexDigit d ≠ 32 ∧ hexDigit d ≠ 44 ∧ hexDigit d ≠ 125 := by decide

theorem hexRev_chars : ∀ (fuel n : Nat), ∀ c ∈ hexDigitsRev fuel n, c ≠ 32 ∧ c ≠ 44 ∧ c ≠ 125
  | 0, _, c, h => by cases h
  | fuel + 1, n, c, h => by
    rw [hexDigitsRev] at h
    split at h
    · rename_i h16
      rw [List.mem_singleton.mp h]; exact hexDigit_small _ h16
    · rcases List.mem_cons.mp h with rfl | h
      · exact hexDigit_small _ (Nat.mod_lt _ (by decide))
      · exact hexRev_chars fuel _ c h

theorem fmtHex_chars (n : Nat) : ∀ c ∈ fmtHex n, c ≠ 32 ∧ c ≠ 44 ∧ c ≠ 125 := by
  intro c h
  exact hexRev_chars _ _ c (List.mem_reverse.mp h)

/-- The value of a hexadecimal text. -/
def hexVal (s : Bytes) : Nat := s.foldl (fun n c => n * 16 + (if c.toNat < 65 then c.toNat - 48 else c.toNat - 55)) 0

theorem hexDigit_val : ∀ d < 16, (if (hexDigit d).toNat < 65 then (hexDigit d).toNat - 48 else (hexDigit d).toNat - 55) = d := by decide

theorem hexRev_val : ∀ (fuel n : Nat), n < fuel → hexVal (hexDigitsRev fuel n).reverse = n
  | 0, _, h => absurd h (Nat.not_lt_zero _)
  | fuel + 1, n, h => by
    rw [hexDigitsRev]
    split
    · rename_i h16
      have := hexDigit_val n h16
      simp only [hexVal, List.reverse_cons, List.reverse_nil, List.nil_append, List.foldl_cons, List.foldl_nil]
      omega
    · rename_i h16
      have e := hexRev_val fuel (n / 16) (by omega)
      have d := hexDigit_val (n % 16) (Nat.mod_lt _ (by decide))
      unfold hexVal at e ⊢
      rw [List.reverse_cons, List.foldl_append, e]
      simp only [List.foldl_cons, List.foldl_nil]
      rw [d]
      omega

theorem fmtHex_val (n : Nat) : hexVal (fmtHex n) = n := hexRev_val _ _ (by omega)

/-! ## Neighbour sets -/

theorem table_26 : bitTable.filter (fun p => p.1 != 13) =
    (offsets27.filter fun o => o != (0, 0, 0)).map fun o =>
      ((9 * (o.1 + 1) + 3 * (o.2.1 + 1) + (o.2.2 + 1)).toNat, nbrName o) := by decide +kernel

/-- The 26 offsets in the order of the bits. -/
def offsets26 : List (Int × Int × Int) := offsets27.filter fun o => o != (0, 0, 0)

theorem mem_26 (x y z : Int) : (x, y, z) ∈ offsets26 ↔ IsOffset x y z := by
  constructor
  · intro h
    have : ∀ o ∈ offsets26, (-1 ≤ o.1 ∧ o.1 ≤ 1) ∧ (-1 ≤ o.2.1 ∧ o.2.1 ≤ 1) ∧ (-1 ≤ o.2.2 ∧ o.2.2 ≤ 1) ∧
      ¬ (o.1 = 0 ∧ o.2.1 = 0 ∧ o.2.2 = 0) := by decide
    exact this _ h
  · rintro ⟨⟨x1, x2⟩, ⟨y1, y2⟩, ⟨z1, z2⟩, hn⟩
    have hx : x = -1 ∨ x = 0 ∨ x = 1 := by omega
    have hy : y = -1 ∨ y = 0 ∨ y = 1 := by omega
    have hz : z = -1 ∨ z = 0 ∨ z = 1 := by omega
    rcases hx with rfl | rfl | rfl <;> rcases hy with rfl | rfl | rfl <;> rcases hz with rfl | rfl | rfl <;>
      first | (exact absurd ⟨rfl, rfl, rfl⟩ hn) | decide

/-- The bit of an offset. -/
def bitOf (o : Int × Int × Int) : Nat := (9 * (o.1 + 1) + 3 * (o.2.1 + 1) + (o.2.2 + 1)).toNat

theorem bit_iff {S : Key → Prop} {k : Key} {N : NeighborBitMap} (h : NbrSpec S k N) {x y z : Int} (ho : IsOffset x y z) :
    N.getLsbD (bitOf (x, y, z)) = true ↔ S (k.shift x y z) := by
  rw [h]
  obtain ⟨⟨x1, x2⟩, ⟨y1, y2⟩, ⟨z1, z2⟩, hn⟩ := ho
  have e : ((bitOf (x, y, z) : Nat) : Int) = 9 * (x + 1) + 3 * (y + 1) + (z + 1) := by
    unfold bitOf; dsimp only; omega
  constructor
  · rintro ⟨x', y', z', ⟨⟨a1, a2⟩, ⟨b1, b2⟩, ⟨c1, c2⟩, _⟩, e', hS⟩
    have : x = x' ∧ y = y' ∧ z = z' := by omega
    obtain ⟨rfl, rfl, rfl⟩ := this
    exact hS
  · intro hS
    exact ⟨x, y, z, ⟨⟨x1, x2⟩, ⟨y1, y2⟩, ⟨z1, z2⟩, hn⟩, e, hS⟩

theorem centre_clear {S : Key → Prop} {k : Key} {N : NeighborBitMap} (h : NbrSpec S k N) : N.getLsbD 13 = false := by
  cases e : N.getLsbD 13 with
  | false => rfl
  | true =>
    obtain ⟨x, y, z, ⟨⟨x1, x2⟩, ⟨y1, y2⟩, ⟨z1, z2⟩, hn⟩, e', -⟩ := (h 13).mp e
    exact absurd (by omega : x = 0 ∧ y = 0 ∧ z = 0) hn

theorem namesSet_eq {N : NeighborBitMap} (h : N.getLsbD 13 = false) :
    namesSet N = (offsets26.filter fun o => N.getLsbD (bitOf o)).map nbrName := by
  have e : bitTable.filter (fun p => N.getLsbD p.1) = (bitTable.filter (fun p => p.1 != 13)).filter (fun p => N.getLsbD p.1) := by
    rw [List.filter_filter]
    apply List.filter_congr
    intro p _
    by_cases hp : p.1 = 13
    · rw [hp, h]; rfl
    · simp [hp]
  unfold namesSet
  rw [e, table_26, List.filter_map, List.map_map]
  rfl

theorem namesClear_eq (N : NeighborBitMap) :
    namesClear N = (offsets26.filter fun o => !N.getLsbD (bitOf o)).map fun o => ascii "^" ++ nbrName o := by
  unfold namesClear
  rw [← List.filter_filter, table_26, List.filter_map, List.map_map]
  rfl

theorem lists_here {S : Key → Prop} {k : Key} {N : NeighborBitMap} (h : NbrSpec S k N) :
    ListsOffsets (offsets26.filter fun o => N.getLsbD (bitOf o)) (fun x y z => S (k.shift x y z)) ∧
    ListsOffsets (offsets26.filter fun o => !N.getLsbD (bitOf o)) (fun x y z => ¬ S (k.shift x y z)) := by
  have nd : offsets26.Nodup := by decide
  refine ⟨⟨nd.filter _, fun x y z => ?_⟩, ⟨nd.filter _, fun x y z => ?_⟩⟩
  · rw [List.mem_filter, mem_26]
    exact and_congr_right fun ho => bit_iff h ho
  · rw [List.mem_filter, mem_26]
    refine and_congr_right fun ho => ?_
    show _ ↔ ¬ S (k.shift x y z)
    rw [← bit_iff h ho]
    simp

theorem filter_count {α : Type} (p : α → Bool) : ∀ l : List α, (l.filter p).length + (l.filter fun a => !p a).length = l.length
  | [] => rfl
  | a :: l => by
    have := filter_count p l
    cases e : p a <;> simp [e] <;> omega

/-- **C100.** What is printed for the neighbours of a voxel: their bit map in hexadecimal, then their names, each once; or, if there
    are more than 13, the names of those that are missing. -/
theorem nbmString_spec {S : Key → Prop} {k : Key} {N : NeighborBitMap} (h : NbrSpec S k N) :
    ∃ hex here gone, DigitText 16 hex N.toNat ∧
      ListsOffsets here (fun x y z => S (k.shift x y z)) ∧ ListsOffsets gone (fun x y z => ¬ S (k.shift x y z)) ∧
      here.length + gone.length = 26 ∧
      nbmString N = ascii "0x" ++ hex ++ ascii " = " ++
        (if here.length ≤ 13 then List.intercalate (ascii " | ") (here.map nbrName)
         else ascii "allNeighbors & " ++ List.intercalate (ascii " & ") (gone.map fun o => ascii "^" ++ nbrName o)) := by
  have hc := filter_count (fun o => N.getLsbD (bitOf o)) offsets26
  have h26 : offsets26.length = 26 := by decide
  refine ⟨fmtHex N.toNat, _, _, fmtHex_text _, (lists_here h).1, (lists_here h).2, hc.trans h26, ?_⟩
  unfold nbmString nbmExpr
  rw [namesSet_eq (centre_clear h), namesClear_eq, joinWith_eq, joinWith_eq, List.length_map, List.length_map]
  congr 1
  rw [h26] at hc
  split <;> rename_i h1
  · rw [if_pos (by omega)]
  · rw [if_neg (by omega)]

theorem hex_read {n m : Nat} {r r' : Bytes} (h : fmtHex n ++ ascii " = " ++ r = fmtHex m ++ ascii " = " ++ r') : n = m := by
  have h : fmtHex n ++ 32 :: (ascii "= " ++ r) = fmtHex m ++ 32 :: (ascii "= " ++ r') := by
    simpa [ascii] using h
  have := (word_read (stop := fun c => c == 32) (fun c hc => by simpa using (fmtHex_chars n c hc).1)
    (fun c hc => by simpa using (fmtHex_chars m c hc).1) rfl rfl h).1
  rw [← fmtHex_val n, this, fmtHex_val]

/-- **C100.** Different bit maps are printed differently. -/
theorem nbmString_injective {N M : NeighborBitMap} (h : nbmString N = nbmString M) : N = M := by
  unfold nbmString at h
  rw [List.append_assoc, List.append_assoc, List.append_assoc, List.append_assoc] at h
  have h := List.append_cancel_left h
  rw [← List.append_assoc, ← List.append_assoc] at h
  exact BitVec.eq_of_toNat_eq (hex_read h)

theorem join_chars {p : UInt8 → Prop} {sep : Bytes} (hs : ∀ c ∈ sep, p c) : ∀ {l : List Bytes}, (∀ w ∈ l, ∀ c ∈ w, p c) →
    ∀ c ∈ joinWith sep l, p c
  | [], _, c, hc => by cases hc
  | [w], h, c, hc => h w List.mem_cons_self c hc
  | w :: v :: l, h, c, hc => by
    rw [joinWith] at hc
    · rcases List.mem_append.mp hc with hc | hc
      · rcases List.mem_append.mp hc with hc | hc
        · exact h w List.mem_cons_self c hc
        · exact hs c hc
      · exact join_chars hs (fun x hx => h x (List.mem_cons_of_mem _ hx)) c hc
    · nofun

theorem nbmString_chars (N : NeighborBitMap) : ∀ c ∈ nbmString N, c ≠ 44 ∧ c ≠ 125 := by
  have hn : ∀ w ∈ bitNames, ∀ c ∈ w, c ≠ 44 ∧ c ≠ 125 := by decide
  have hb : ∀ p ∈ bitTable, p.2 ∈ bitNames := by decide
  have lits : (∀ c ∈ ascii "0x", c ≠ 44 ∧ c ≠ 125) ∧ (∀ c ∈ ascii " = ", c ≠ 44 ∧ c ≠ 125) ∧
      (∀ c ∈ ascii "allNeighbors & ", c ≠ 44 ∧ c ≠ 125) ∧ (∀ c ∈ ascii "^", c ≠ 44 ∧ c ≠ 125) := by decide
  intro c hc
  unfold nbmString nbmExpr at hc
  rcases List.mem_append.mp hc with hc | hc
  · rcases List.mem_append.mp hc with hc | hc
    · rcases List.mem_append.mp hc with hc | hc
      · exact lits.1 c hc
      · exact (fmtHex_chars _ c hc).2
    · exact lits.2.1 c hc
  · split at hc
    · refine join_chars (p := fun c => c ≠ 44 ∧ c ≠ 125) (by decide) (fun w hw => ?_) c hc
      obtain ⟨p, hp, rfl⟩ := List.mem_map.mp hw
      exact hn _ (hb p (List.mem_filter.mp hp).1)
    · rcases List.mem_append.mp hc with hc | hc
      · exact lits.2.2.1 c hc
      · refine join_chars (p := fun c => c ≠ 44 ∧ c ≠ 125) (by decide) (fun w hw => ?_) c hc
        obtain ⟨p, hp, rfl⟩ := List.mem_map.mp hw
        intro c hc
        rcases List.mem_append.mp hc with hc | hc
        · exact lits.2.2.2 c hc
        · exact hn _ (hb p (List.mem_filter.mp hp).1) c hc

theorem fmtInt_plain (i : Int) : ∀ c ∈ fmtInt i, isSpace c = false ∧ c ≠ 44 ∧ c ≠ 40 ∧ c ≠ 41 ∧ c ≠ 91 ∧ c ≠ 93 ∧ c ≠ 125 := by
  intro c hc
  rcases fmtInt_chars i c hc with h | rfl
  · have h2 := digit_not_space h
    refine ⟨h2, ?_, ?_, ?_, ?_, ?_, ?_⟩ <;> rintro rfl <;> revert h <;> decide
  · decide

/-- **C100.** Different shell voxels are printed differently. -/
theorem vshVoxel_string_injective {v w : VShVoxel} (h : v.String = w.String) : v = w := by
  have key : ∀ v : VShVoxel, ∀ x ∈ [fmtInt v.X, fmtInt v.Y, fmtInt v.Z, nbmString v.N], ∀ c ∈ x, (c == 44 || c == 125) = false := by
    intro v x hx c hc
    simp only [List.mem_cons, List.not_mem_nil, or_false] at hx
    rcases hx with rfl | rfl | rfl | rfl
    · have := fmtInt_plain _ c hc; simp [this.2.1, this.2.2.2.2.2.2]
    · have := fmtInt_plain _ c hc; simp [this.2.1, this.2.2.2.2.2.2]
    · have := fmtInt_plain _ c hc; simp [this.2.1, this.2.2.2.2.2.2]
    · have := nbmString_chars _ c hc; simp [this.1, this.2]
  have e := sprintf_read (stop := fun c => c == 44 || c == 125) rfl _ (by decide) rfl rfl (key v) (key w) h
  cases v
  cases w
  simp only [List.cons.injEq, and_true] at e
  obtain ⟨e1, e2, e3, e4⟩ := e
  rw [fmtInt_injective e1, fmtInt_injective e2, fmtInt_injective e3, nbmString_injective e4]

/-- **C100.** Bits above the 27 are never named, and when more than 13 neighbours are there, nor is the centre: what is printed after the
    number is then not its value. -/
theorem nbmExpr_forgets (N : NeighborBitMap) :
    nbmExpr N = nbmExpr (N &&& 0x7FFFFFF#32) ∧
    (13 < (offsets26.filter fun o => N.getLsbD (bitOf o)).length → nbmExpr (N ||| x0y0z0) = nbmExpr N) := by
  have low : ∀ p ∈ bitTable, p.1 < 27 := by decide
  have bits : ∀ i < 27, (0x7FFFFFF#32).getLsbD i = true := by decide
  have cen : ∀ i < 27, i ≠ 13 → x0y0z0.getLsbD i = false := by decide
  constructor
  · have e1 : namesSet (N &&& 0x7FFFFFF#32) = namesSet N := by
      unfold namesSet
      congr 1
      apply List.filter_congr
      intro p hp
      rw [BitVec.getLsbD_and, bits _ (low p hp), Bool.and_true]
    have e2 : namesClear (N &&& 0x7FFFFFF#32) = namesClear N := by
      unfold namesClear
      congr 1
      apply List.filter_congr
      intro p hp
      rw [BitVec.getLsbD_and, bits _ (low p hp), Bool.and_true]
    unfold nbmExpr
    rw [e1, e2]
  · intro h13
    have e2 : namesClear (N ||| x0y0z0) = namesClear N := by
      unfold namesClear
      congr 1
      apply List.filter_congr
      intro p hp
      rw [BitVec.getLsbD_or]
      by_cases h : p.1 = 13
      · simp [h]
      · rw [cen _ (low p hp) h, Bool.or_false]
    have cnt : ∀ M : NeighborBitMap, (offsets26.filter fun o => M.getLsbD (bitOf o)).length ≤ (namesSet M).length := by
      intro M
      have e : (offsets26.filter fun o => M.getLsbD (bitOf o)).length =
          ((bitTable.filter (fun p => p.1 != 13)).filter fun p => M.getLsbD p.1).length := by
        rw [table_26, List.filter_map, List.length_map]
        rfl
      rw [e, List.filter_filter]
      unfold namesSet
      rw [List.length_map, ← List.countP_eq_length_filter, ← List.countP_eq_length_filter]
      apply List.countP_mono_left
      intro p _ h
      rw [Bool.and_eq_true] at h
      exact h.1
    have mono : (namesSet N).length ≤ (namesSet (N ||| x0y0z0)).length := by
      unfold namesSet
      rw [List.length_map, List.length_map, ← List.countP_eq_length_filter, ← List.countP_eq_length_filter]
      apply List.countP_mono_left
      intro p _ h
      rw [BitVec.getLsbD_or, h, Bool.true_or]
    have h1 := cnt N
    have h2 := filter_count (fun o => N.getLsbD (bitOf o)) offsets26
    have h26 : offsets26.length = 26 := by decide
    rw [h26] at h2
    have h3 : (namesClear N).length = (offsets26.filter fun o => !N.getLsbD (bitOf o)).length := by
      rw [namesClear_eq, List.length_map]
    unfold nbmExpr
    rw [e2, if_neg (by omega), if_neg (by omega)]

/-! ## Summaries -/

/-- The bytes that end a number in a summary. -/
def summaryStop (c : UInt8) : Bool := isSpace c || c == 44 || c == 40 || c == 41 || c == 91 || c == 93

theorem plain_stop {w : Bytes} (h : PlainWord w) : ∀ c ∈ w, summaryStop c = false := by
  intro c hc
  obtain ⟨h1, h2, h3, h4, h5, h6⟩ := h.2 c hc
  simp [summaryStop, h1, h2, h3, h4, h5, h6]

theorem int_stop (i : Int) : ∀ c ∈ fmtInt i, summaryStop c = false := by
  intro c hc
  obtain ⟨h1, h2, h3, h4, h5, h6, -⟩ := fmtInt_plain i c hc
  simp [summaryStop, h1, h2, h3, h4, h5, h6]

section
variable {F : Type} [GoFloat F] [FloatText F] [LawfulFloatText F]

omit [GoFloat F] in
theorem fmtG_injective {x y : F} (h : FloatText.fmtG x = FloatText.fmtG y) : x = y := by
  have h1 := LawfulFloatText.parse_fmt x
  rw [h, LawfulFloatText.parse_fmt y] at h1
  exact (Option.some.inj h1).symm

omit [LawfulFloatText F] in
theorem summary_plain (hp : ∀ x : F, PlainWord (FloatText.fmtG x)) (b : BinVOX F) :
    ∀ w ∈ summaryWords b, ∀ c ∈ w, summaryStop c = false := by
  intro w hw
  unfold summaryWords at hw
  simp only [List.mem_cons, List.not_mem_nil, or_false] at hw
  rcases hw with rfl | rfl | rfl | rfl | rfl | rfl | rfl | rfl | rfl | rfl | rfl | rfl | rfl | rfl
  · exact int_stop _
  · exact int_stop _
  · exact int_stop _
  all_goals exact plain_stop (hp _)

theorem summary_same {b c : BinVOX F} (h : summaryWords b = summaryWords c) :
    b.NX = c.NX ∧ b.NY = c.NY ∧ b.NZ = c.NZ ∧ b.TX = c.TX ∧ b.TY = c.TY ∧ b.TZ = c.TZ ∧ b.Scale = c.Scale := by
  unfold summaryWords at h
  simp only [List.cons.injEq, and_true] at h
  obtain ⟨h1, h2, h3, h4, h5, h6, -, -, -, -, -, -, h7, -⟩ := h
  exact ⟨fmtInt_injective h1, fmtInt_injective h2, fmtInt_injective h3, fmtG_injective h4, fmtG_injective h5, fmtG_injective h6,
    fmtG_injective h7⟩

/-- **C100.** Models with the same summary have the same size, place and scale and as many voxels of either kind. -/
theorem binvox_string_read (hp : ∀ x : F, PlainWord (FloatText.fmtG x)) {b c : BinVOX F} (h : b.String = c.String) :
    b.NX = c.NX ∧ b.NY = c.NY ∧ b.NZ = c.NZ ∧ b.TX = c.TX ∧ b.TY = c.TY ∧ b.TZ = c.TZ ∧ b.Scale = c.Scale ∧
    b.white.length = c.white.length ∧ b.color.length = c.color.length := by
  have key : ∀ b : BinVOX F, ∀ x ∈ summaryWords b ++ [fmtInt b.white.length, fmtInt b.color.length], ∀ c ∈ x, summaryStop c = false := by
    intro b x hx
    rcases List.mem_append.mp hx with hx | hx
    · exact summary_plain hp b x hx
    · simp only [List.mem_cons, List.not_mem_nil, or_false] at hx
      rcases hx with rfl | rfl <;> exact int_stop _
  have e := sprintf_read (stop := summaryStop) rfl _ (by decide +kernel)
    (by show 16 = _; decide +kernel) (by show 16 = _; decide +kernel) (key b) (key c) h
  have e' := List.append_inj e rfl
  obtain ⟨s1, s2, s3, s4, s5, s6, s7⟩ := summary_same e'.1
  have e2 := e'.2
  simp only [List.cons.injEq, and_true] at e2
  have w := fmtInt_injective e2.1
  have cl := fmtInt_injective e2.2
  exact ⟨s1, s2, s3, s4, s5, s6, s7, by omega, by omega⟩

/-- **C100.** Shells with the same summary have the same size, place and scale and as many voxels. -/
theorem vshell_string_read (hp : ∀ x : F, PlainWord (FloatText.fmtG x)) {v w : VShell F} (h : v.String = w.String) :
    v.NX = w.NX ∧ v.NY = w.NY ∧ v.NZ = w.NZ ∧ v.TX = w.TX ∧ v.TY = w.TY ∧ v.TZ = w.TZ ∧ v.Scale = w.Scale ∧
    v.Voxels.length = w.Voxels.length := by
  have key : ∀ v : VShell F, ∀ x ∈ summaryWords v.frame ++ [fmtInt v.Voxels.length], ∀ c ∈ x, summaryStop c = false := by
    intro v x hx
    rcases List.mem_append.mp hx with hx | hx
    · exact summary_plain hp v.frame x hx
    · simp only [List.mem_cons, List.not_mem_nil, or_false] at hx
      rw [hx]; exact int_stop _
  have e := sprintf_read (stop := summaryStop) rfl _ (by decide +kernel)
    (by show 15 = _; decide +kernel) (by show 15 = _; decide +kernel) (key v) (key w) h
  have e' := List.append_inj e rfl
  obtain ⟨s1, s2, s3, s4, s5, s6, s7⟩ := summary_same e'.1
  have e2 := e'.2
  simp only [List.cons.injEq, and_true] at e2
  have l := fmtInt_injective e2
  exact ⟨s1, s2, s3, s4, s5, s6, s7, by omega⟩

end

/-- **C100.** In float64, with the text Go prints. -/
theorem summaries_f64 {b c : BinVOX F64} (h : b.String = c.String) :
    b.NX = c.NX ∧ b.NY = c.NY ∧ b.NZ = c.NZ ∧ b.TX = c.TX ∧ b.TY = c.TY ∧ b.TZ = c.TZ ∧ b.Scale = c.Scale ∧
    b.white.length = c.white.length ∧ b.color.length = c.color.length :=
  binvox_string_read f64_plain h

/-! ## Grid cells of ManifoldMesh -/

namespace Manifold

theorem lists_corners (n : Nat) (on : Bool) :
    ListsCorners ((List.range 8).filter fun i => n.testBit i == on) (fun i => n.testBit i = on) := by
  refine ⟨(List.pairwise_lt_range (n := 8)).filter _, fun i => ?_⟩
  rw [List.mem_filter, List.mem_range, beq_iff_eq]

/-- **C100.** What is printed for a grid cell with a solid corner: the corners that are solid and those that are not, each list in full and in
    order. -/
theorem cellString_spec {n : Nat} (h8 : n < 256) (h0 : n ≠ 0) :
    ∃ on off, ListsCorners on (fun i => n.testBit i = true) ∧ ListsCorners off (fun i => n.testBit i = false) ∧
      cellString n = ascii "g" ++ on.map (fun i => UInt8.ofNat (48 + i)) ++ ascii " = case " ++
        List.intercalate (ascii " | ") (on.map fun i => ascii "g" ++ [UInt8.ofNat (48 + i)]) ++ ascii ": (inverse = g" ++
        off.map (fun i => UInt8.ofNat (48 + i)) ++ ascii " = case " ++
        List.intercalate (ascii " | ") (off.map fun i => ascii "g" ++ [UInt8.ofNat (48 + i)]) ++ ascii ":)" := by
  refine ⟨_, _, lists_corners n true, lists_corners n false, ?_⟩
  have hne : (cornerNames n true).length ≠ 0 := by
    intro e
    apply h0
    apply Nat.eq_of_testBit_eq
    intro i
    rw [Nat.zero_testBit]
    cases hb : n.testBit i with
    | false => rfl
    | true =>
      exfalso
      have hi : i < 8 := by
        by_contra hi
        have : n < 2 ^ i := lt_of_lt_of_le h8 (Nat.pow_le_pow_right (by decide : 0 < 2) (by omega : 8 ≤ i))
        rw [Nat.testBit_lt_two_pow this] at hb
        cases hb
      have : ascii "g" ++ [UInt8.ofNat (48 + i)] ∈ cornerNames n true :=
        List.mem_map.mpr ⟨i, ((lists_corners n true).2 i).mpr ⟨hi, hb⟩, rfl⟩
      rw [List.eq_nil_of_length_eq_zero e] at this
      cases this
  unfold cellString
  rw [if_neg hne, joinWith_eq, joinWith_eq]
  unfold cornerDigits cornerNames
  simp [ascii, sprintf, List.append_assoc]

/-- **C100.** Different cells are printed differently; the empty one as `0=0x0=*empty*`. -/
theorem cellString_injective : (∀ n m, n < 256 → m < 256 → cellString n = cellString m → n = m) ∧
    cellString 0 = ascii "0=0x0=*empty*" := by
  have nd : ((List.range 256).map cellString).Nodup := by decide +kernel
  refine ⟨fun n m hn hm e => ?_, by decide +kernel⟩
  exact List.inj_on_of_nodup_map nd (List.mem_range.mpr hn) (List.mem_range.mpr hm) e

end Manifold

/-! ## Concrete cases -/

/-- A voxel with one neighbour, at (1, 0, 0). -/
theorem one_neighbour : NbrSpec (fun k => k = ⟨1, 0, 0⟩) ⟨0, 0, 0⟩ (1#32 <<< 22) := by
  intro i
  have hb : (1#32 <<< 22).getLsbD i = true ↔ i = 22 := by
    by_cases hi : i < 32
    · have : ∀ j < 32, (1#32 <<< 22).getLsbD j = true ↔ j = 22 := by decide
      exact this i hi
    · rw [BitVec.getLsbD_of_ge _ _ (by omega)]
      constructor
      · nofun
      · intro h; omega
  rw [hb]
  constructor
  · rintro rfl
    exact ⟨1, 0, 0, by unfold IsOffset; decide, by decide, by decide⟩
  · rintro ⟨x, y, z, -, e, hS⟩
    have hS : (⟨0 + x, 0 + y, 0 + z⟩ : Key) = ⟨1, 0, 0⟩ := hS
    injection hS with a b c
    omega

example := nbmString_spec one_neighbour

example : nbmString (1#32 <<< 22) = ascii "0x400000 = X1Y0Z0" := by decide +kernel

example : nbmString (0x7FFDFFF#32 &&& ~~~(1#32 <<< 22)) = ascii "0x7BFDFFF = allNeighbors & ^X1Y0Z0" := by decide +kernel

example : nbmString (0x7FFFFFF#32) = ascii "0x7FFFFFF = allNeighbors & " := by decide +kernel

example : (⟨1, -2, 3, 1#32 <<< 22⟩ : VShVoxel).String = ascii "{X:1,Y:-2,Z:3,N:0x400000 = X1Y0Z0}" := by decide +kernel

example : Manifold.cellString 9 = ascii "g03 = case g0 | g3: (inverse = g124567 = case g1 | g2 | g4 | g5 | g6 | g7:)" := by
  decide +kernel

example := @Manifold.cellString_spec 9 (by decide) (by decide)

example : (BinVOX.New 8 4 2 (F64.of 0) (F64.of (1 / 2)) (F64.of 0) (F64.of 10) false).String =
    ascii ("BinVOX(n=[8,4,2], t=[0,0.5,0], mbb=(0,0.5,0)-(10,5.5,2.5), scale=10, 0.8 vpmm, " ++
      "0 white voxels, 0 color voxels)") := by decide +kernel

end StlDice
