import Verif.Lemmas.Text

/-! The header parser accepts exactly the specified header lines. -/

namespace StlDice
open Spec

theorem lineEnd_head {e : Bytes} (h : IsLineEnd e) : ∃ c r, e = c :: r ∧ isSpace c = true := by
  obtain ⟨w, rfl, hw⟩ := h
  cases w with
  | nil => exact ⟨nl, [], rfl, isSpace_nl⟩
  | cons c w => exact ⟨c, w ++ [nl], rfl, (isSpace_iff c).mpr (hw c (by simp)).1⟩

theorem lineEnd_all {e : Bytes} (h : IsLineEnd e) : e.all isSpace = true := by
  obtain ⟨w, rfl, hw⟩ := h
  rw [List.all_eq_true]
  intro c hc
  rcases List.mem_append.mp hc with hc | hc
  · exact (isSpace_iff c).mpr (hw c hc).1
  · simp at hc; rw [hc]; exact isSpace_nl

theorem not_digit_of_space {c : UInt8} (h : isSpace c = true) : isDigit c = false := by
  by_contra hc
  rw [Bool.not_eq_false] at hc
  rw [digit_not_space hc] at h; exact absurd h (by decide)

theorem space_bytes : ascii " " = [32] := by decide

theorem capture_word_sp {p : UInt8 → Bool} {w : Bytes} (hne : w ≠ []) (hw : ∀ c ∈ w, p c = true)
    (hp : p 32 = false) (s : Bytes) :
    capture p (w ++ (ascii " " ++ s)) = some (w, ascii " " ++ s) := by
  rw [space_bytes]; exact capture_append hne hw hp s

theorem capture_word_end {p : UInt8 → Bool} {w e : Bytes} (hne : w ≠ [])
    (hw : ∀ c ∈ w, p c = true) (he : IsLineEnd e) (hp : ∀ c, isSpace c = true → p c = false) :
    capture p (w ++ e) = some (w, e) := by
  obtain ⟨c, r, rfl, hc⟩ := lineEnd_head he
  exact capture_append hne hw (hp c hc) r

theorem matchDim_of {l : Bytes} {nx ny nz : Int} (h : IsDimLine l nx ny nz) :
    ∃ a b c, matchDim l = some (a, b, c) ∧ atoi a = some nx ∧ atoi b = some ny ∧
      atoi c = some nz := by
  obtain ⟨a, b, c, e, rfl, ha, hb, hc, he⟩ := h
  rw [isNumber_iff] at ha hb hc
  refine ⟨a, b, c, ?_, ?_, ?_, ?_⟩
  · simp only [matchDim, List.append_assoc, stripPrefix_append, Option.bind_eq_bind,
      Option.bind_some, capture_word_sp ha.1 ha.2.1 isDigit_space,
      capture_word_sp hb.1 hb.2.1 isDigit_space,
      capture_word_end hc.1 hc.2.1 he (fun _ => not_digit_of_space), lineEnd_all he, if_true]
  · simp [atoi, ha.2.2.2, ha.2.2.1]
  · simp [atoi, hb.2.2.2, hb.2.2.1]
  · simp [atoi, hc.2.2.2, hc.2.2.1]

theorem not_space_true {c : UInt8} (h : isSpace c = false) : (!isSpace c) = true := by simp [h]
theorem not_space_false (c : UInt8) (h : isSpace c = true) : (!isSpace c) = false := by simp [h]
theorem not_space_32 : (!isSpace 32) = false := by decide

theorem matchTranslate_of {F : Type} [FloatText F] {l : Bytes} {tx ty tz : F}
    (h : IsTranslateLine l tx ty tz) :
    ∃ a b c, matchTranslate l = some (a, b, c) ∧ FloatText.parseFloat a = some tx ∧
      FloatText.parseFloat b = some ty ∧ FloatText.parseFloat c = some tz := by
  obtain ⟨a, b, c, e, rfl, ha, hb, hc, he, h1, h2, h3⟩ := h
  refine ⟨a, b, c, ?_, h1, h2, h3⟩
  simp only [matchTranslate, List.append_assoc, stripPrefix_append, Option.bind_eq_bind,
    Option.bind_some,
    capture_word_sp (p := fun c => !isSpace c) ha.1 (fun c h => not_space_true ((isSpace_false_iff c).mpr (ha.2 c h)))
      not_space_32,
    capture_word_sp (p := fun c => !isSpace c) hb.1 (fun c h => not_space_true ((isSpace_false_iff c).mpr (hb.2 c h)))
      not_space_32,
    capture_word_end (p := fun c => !isSpace c) hc.1 (fun c h => not_space_true ((isSpace_false_iff c).mpr (hc.2 c h))) he
      not_space_false, lineEnd_all he, if_true]

theorem matchScale_of {F : Type} [FloatText F] {l : Bytes} {s : F} (h : IsScaleLine l s) :
    ∃ a, matchScale l = some a ∧ FloatText.parseFloat a = some s := by
  obtain ⟨a, e, rfl, ha, he, h1⟩ := h
  refine ⟨a, ?_, h1⟩
  simp only [matchScale, List.append_assoc, stripPrefix_append, Option.bind_eq_bind,
    Option.bind_some,
    capture_word_end (p := fun c => !isSpace c) ha.1 (fun c h => not_space_true ((isSpace_false_iff c).mpr (ha.2 c h))) he
      not_space_false, lineEnd_all he, if_true]

/-- A line as returned by `readLine`: no newline except the last byte. -/
def IsLine (l : Bytes) : Prop := ∃ w, l = w ++ [nl] ∧ ∀ c ∈ w, c ≠ nl

theorem IsLine.read {l : Bytes} (h : IsLine l) (s : Bytes) : readLine (l ++ s) = some (l, s) := by
  obtain ⟨w, rfl, hw⟩ := h
  rw [List.append_assoc]; exact readLine_append hw s

theorem isLine_of_readLine {s l r : Bytes} (h : readLine s = some (l, r)) :
    IsLine l ∧ s = l ++ r := by
  obtain ⟨w, hl, hs, hw⟩ := readLine_some h
  exact ⟨⟨w, hl, hw⟩, hs⟩

theorem IsLine.append_end {p e : Bytes} (hp : ∀ c ∈ p, c ≠ nl) (he : IsLineEnd e) :
    IsLine (p ++ e) := by
  obtain ⟨w, rfl, hw⟩ := he
  refine ⟨p ++ w, by simp, ?_⟩
  intro c hc
  rcases List.mem_append.mp hc with h | h
  · exact hp c h
  · exact (hw c h).2

theorem digit_ne_nl {c : UInt8} (h : isDigit c = true) : c ≠ nl := by
  rintro rfl; revert h; decide

theorem nospace_ne_nl {c : UInt8} (h : isSpace c = false) : c ≠ nl := by
  rintro rfl; revert h; decide

theorem ascii_ne_nl_dim : ∀ c ∈ ascii "dim ", c ≠ nl := by decide
theorem ascii_ne_nl_tr : ∀ c ∈ ascii "translate ", c ≠ nl := by decide
theorem ascii_ne_nl_sc : ∀ c ∈ ascii "scale ", c ≠ nl := by decide
theorem ascii_ne_nl_sp : ∀ c ∈ ascii " ", c ≠ nl := by decide

theorem forall_append {p : UInt8 → Prop} {a b : Bytes} (ha : ∀ c ∈ a, p c) (hb : ∀ c ∈ b, p c) :
    ∀ c ∈ a ++ b, p c := by
  intro c hc
  rcases List.mem_append.mp hc with h | h
  · exact ha c h
  · exact hb c h

theorem isLine_dim {l : Bytes} {nx ny nz : Int} (h : IsDimLine l nx ny nz) : IsLine l := by
  obtain ⟨a, b, c, e, rfl, ha, hb, hc, he⟩ := h
  refine IsLine.append_end ?_ he
  have f : ∀ {w n}, IsNumber w n → ∀ c ∈ w, c ≠ nl := fun h c hc => digit_ne_nl (((isNumber_iff _ _).mp h).2.1 c hc)
  exact forall_append (forall_append (forall_append (forall_append (forall_append
    ascii_ne_nl_dim (f ha)) ascii_ne_nl_sp) (f hb)) ascii_ne_nl_sp) (f hc)

theorem isLine_translate {F : Type} [FloatText F] {l : Bytes} {tx ty tz : F}
    (h : IsTranslateLine l tx ty tz) : IsLine l := by
  obtain ⟨a, b, c, e, rfl, ha, hb, hc, he, -⟩ := h
  refine IsLine.append_end ?_ he
  have f : ∀ {w}, IsWord w → ∀ c ∈ w, c ≠ nl := fun h c hc => nospace_ne_nl ((isSpace_false_iff c).mpr (h.2 c hc))
  exact forall_append (forall_append (forall_append (forall_append (forall_append
    ascii_ne_nl_tr (f ha)) ascii_ne_nl_sp) (f hb)) ascii_ne_nl_sp) (f hc)

theorem isLine_scale {F : Type} [FloatText F] {l : Bytes} {s : F}
    (h : IsScaleLine l s) : IsLine l := by
  obtain ⟨a, e, rfl, ha, he, -⟩ := h
  refine IsLine.append_end ?_ he
  exact forall_append ascii_ne_nl_sc (fun c hc => nospace_ne_nl ((isSpace_false_iff c).mpr (ha.2 c hc)))

theorem isLine_data : IsLine (ascii "data\n") := ⟨ascii "data", by decide, by decide⟩

theorem readDimLine_of {d : Bytes} {nx ny nz : Int} (hd : IsDimLine d nx ny nz) (s : Bytes) :
    readDimLine (d ++ s) = some ((nx, ny, nz), s) := by
  obtain ⟨a, b, c, h1, h2, h3, h4⟩ := matchDim_of hd
  unfold readDimLine
  rw [(isLine_dim hd).read]
  simp only [h1, h2, h3, h4]

theorem readTranslateLine_of {F : Type} [FloatText F] {d : Bytes} {tx ty tz : F}
    (hd : IsTranslateLine d tx ty tz) (s : Bytes) :
    readTranslateLine (d ++ s) = some ((tx, ty, tz), s) := by
  obtain ⟨a, b, c, h1, h2, h3, h4⟩ := matchTranslate_of hd
  unfold readTranslateLine
  rw [(isLine_translate hd).read]
  simp only [h1, h2, h3, h4]

theorem readScaleLine_of {F : Type} [FloatText F] {d : Bytes} {sc : F}
    (hd : IsScaleLine d sc) (s : Bytes) : readScaleLine (d ++ s) = some (sc, s) := by
  obtain ⟨a, h1, h2⟩ := matchScale_of hd
  unfold readScaleLine
  rw [(isLine_scale hd).read]
  simp only [h1, h2]

/-- A well-formed header is read back, followed by anything. -/
theorem readHeader_of {F : Type} [FloatText F] {magic : Bytes} (hm : IsLine magic) {h : Header F}
    {hb : Bytes} (hh : IsHeader magic h hb) {r : Region}
    (hr : ¬ (r.sx > h.nx ∨ r.sy > h.ny ∨ r.sz > h.nz)) (rest : Bytes) :
    readHeader magic r (hb ++ rest) = some (h, rest) := by
  obtain ⟨d, t, s, rfl, hd, ht, hs⟩ := hh
  unfold readHeader
  simp only [List.append_assoc]
  rw [hm.read]
  simp only [ne_eq, not_true_eq_false, if_false]
  rw [readDimLine_of hd]
  simp only [hr, if_false]
  rw [readTranslateLine_of ht]
  simp only []
  rw [readScaleLine_of hs]
  simp only []
  rw [isLine_data.read]
  simp only [not_true_eq_false, if_false]

theorem isLineEnd_of {c : Bytes} {line pre : Bytes} (hl : IsLine line) (h : line = pre ++ c)
    (hc : c.all isSpace = true) (hpre : ∀ x ∈ pre, isSpace x = false ∨ x = 32) : IsLineEnd c := by
  obtain ⟨w, rfl, hw⟩ := hl
  rw [List.all_eq_true] at hc
  rcases List.eq_nil_or_concat c with rfl | ⟨c', x, rfl⟩
  · exfalso
    rw [List.append_nil] at h
    have : nl ∈ pre := by rw [← h]; simp
    rcases hpre nl this with h1 | h1 <;> revert h1 <;> decide
  · rw [List.concat_eq_append] at *
    rw [← List.append_assoc] at h
    obtain ⟨h1, h2⟩ := List.append_inj' h rfl
    simp only [List.cons.injEq, and_true] at h2
    subst h2
    refine ⟨c', rfl, ?_⟩
    intro y hy
    exact ⟨(isSpace_iff y).mp (hc y (by simp [hy])), hw y (by rw [h1]; simp [hy])⟩

theorem atoi_some {a : Bytes} {n : Int} (h : atoi a = some n) :
    (digitsVal a : Int) = n ∧ digitsVal a ≤ maxInt := by
  unfold atoi at h
  split at h
  · simp only [Option.some.injEq] at h; exact ⟨h, by assumption⟩
  · simp at h

theorem isDimLine_of {l a b c : Bytes} {nx ny nz : Int} (hl : IsLine l)
    (h : matchDim l = some (a, b, c)) (ha : atoi a = some nx) (hb : atoi b = some ny)
    (hc : atoi c = some nz) : IsDimLine l nx ny nz := by
  simp only [matchDim, Option.bind_eq_bind, Option.bind_eq_some_iff, Prod.exists] at h
  obtain ⟨r0, h0, a1, r1, h1, r2, h2, a3, r3, h3, r4, h4, a5, r5, h5, h6⟩ := h
  split at h6
  · rename_i hsp
    simp only [Option.some.injEq, Prod.mk.injEq] at h6
    obtain ⟨rfl, rfl, rfl⟩ := h6
    have e0 := stripPrefix_some h0
    have e1 := capture_some h1
    have e2 := stripPrefix_some h2
    have e3 := capture_some h3
    have e4 := stripPrefix_some h4
    have e5 := capture_some h5
    have hline : l = (ascii "dim " ++ a1 ++ ascii " " ++ a3 ++ ascii " " ++ a5) ++ r5 := by
      rw [e0, e1.1, e2, e3.1, e4, e5.1]; simp
    refine ⟨a1, a3, a5, r5, hline, (isNumber_iff _ _).mpr ⟨e1.2.1, e1.2.2.1, (atoi_some ha).1, (atoi_some ha).2⟩,
      (isNumber_iff _ _).mpr ⟨e3.2.1, e3.2.2.1, (atoi_some hb).1, (atoi_some hb).2⟩,
      (isNumber_iff _ _).mpr ⟨e5.2.1, e5.2.2.1, (atoi_some hc).1, (atoi_some hc).2⟩, ?_⟩
    refine isLineEnd_of hl hline hsp ?_
    have f : ∀ {w : Bytes}, (∀ c ∈ w, isDigit c = true) → ∀ c ∈ w, isSpace c = false ∨ c = 32 :=
      fun h c hc => Or.inl (digit_not_space (h c hc))
    have g : ∀ c ∈ ascii " ", isSpace c = false ∨ c = 32 := by decide
    have g' : ∀ c ∈ ascii "dim ", isSpace c = false ∨ c = 32 := by decide
    exact forall_append (forall_append (forall_append (forall_append (forall_append
      g' (f e1.2.2.1)) g) (f e3.2.2.1)) g) (f e5.2.2.1)
  · simp at h6

theorem isTranslateLine_of {F : Type} [FloatText F] {l a b c : Bytes} {tx ty tz : F}
    (hl : IsLine l) (h : matchTranslate l = some (a, b, c))
    (ha : FloatText.parseFloat a = some tx) (hb : FloatText.parseFloat b = some ty)
    (hc : FloatText.parseFloat c = some tz) : IsTranslateLine l tx ty tz := by
  simp only [matchTranslate, Option.bind_eq_bind, Option.bind_eq_some_iff, Prod.exists] at h
  obtain ⟨r0, h0, a1, r1, h1, r2, h2, a3, r3, h3, r4, h4, a5, r5, h5, h6⟩ := h
  split at h6
  · rename_i hsp
    simp only [Option.some.injEq, Prod.mk.injEq] at h6
    obtain ⟨rfl, rfl, rfl⟩ := h6
    have e0 := stripPrefix_some h0
    have e1 := capture_some h1
    have e2 := stripPrefix_some h2
    have e3 := capture_some h3
    have e4 := stripPrefix_some h4
    have e5 := capture_some h5
    have hline : l = (ascii "translate " ++ a1 ++ ascii " " ++ a3 ++ ascii " " ++ a5) ++ r5 := by
      rw [e0, e1.1, e2, e3.1, e4, e5.1]; simp
    have w : ∀ {w : Bytes}, (∀ c ∈ w, (!isSpace c) = true) → ∀ c ∈ w, isSpace c = false :=
      fun h c hc => by simpa using h c hc
    refine ⟨a1, a3, a5, r5, hline, ⟨e1.2.1, fun c hc => (isSpace_false_iff c).mp (w e1.2.2.1 c hc)⟩, ⟨e3.2.1, fun c hc => (isSpace_false_iff c).mp (w e3.2.2.1 c hc)⟩,
      ⟨e5.2.1, fun c hc => (isSpace_false_iff c).mp (w e5.2.2.1 c hc)⟩, ?_, ha, hb, hc⟩
    refine isLineEnd_of hl hline hsp ?_
    have f : ∀ {w : Bytes}, (∀ c ∈ w, isSpace c = false) → ∀ c ∈ w, isSpace c = false ∨ c = 32 :=
      fun h c hc => Or.inl (h c hc)
    have g : ∀ c ∈ ascii " ", isSpace c = false ∨ c = 32 := by decide
    have g' : ∀ c ∈ ascii "translate ", isSpace c = false ∨ c = 32 := by decide
    exact forall_append (forall_append (forall_append (forall_append (forall_append
      g' (f (w e1.2.2.1))) g) (f (w e3.2.2.1))) g) (f (w e5.2.2.1))
  · simp at h6

theorem isScaleLine_of {F : Type} [FloatText F] {l a : Bytes} {s : F}
    (hl : IsLine l) (h : matchScale l = some a)
    (ha : FloatText.parseFloat a = some s) : IsScaleLine l s := by
  simp only [matchScale, Option.bind_eq_bind, Option.bind_eq_some_iff, Prod.exists] at h
  obtain ⟨r0, h0, a1, r1, h1, h6⟩ := h
  split at h6
  · rename_i hsp
    simp only [Option.some.injEq] at h6
    subst h6
    have e0 := stripPrefix_some h0
    have e1 := capture_some h1
    have hline : l = (ascii "scale " ++ a1) ++ r1 := by rw [e0, e1.1]; simp
    have w : ∀ c ∈ a1, isSpace c = false := fun c hc => by simpa using e1.2.2.1 c hc
    refine ⟨a1, r1, hline, ⟨e1.2.1, fun c hc => (isSpace_false_iff c).mp (w c hc)⟩, ?_, ha⟩
    refine isLineEnd_of hl hline hsp ?_
    have g' : ∀ c ∈ ascii "scale ", isSpace c = false ∨ c = 32 := by decide
    exact forall_append g' (fun c hc => Or.inl (w c hc))
  · simp at h6

theorem isDimLine_of_read {s rest : Bytes} {nx ny nz : Int}
    (h : readDimLine s = some ((nx, ny, nz), rest)) :
    ∃ d, s = d ++ rest ∧ IsDimLine d nx ny nz := by
  unfold readDimLine at h
  split at h
  · simp at h
  rename_i d s' hl
  split at h
  · simp at h
  rename_i a b c hm
  split at h
  · rename_i x y z hx hy hz
    simp only [Option.some.injEq, Prod.mk.injEq] at h
    obtain ⟨⟨rfl, rfl, rfl⟩, rfl⟩ := h
    obtain ⟨i, e⟩ := isLine_of_readLine hl
    exact ⟨d, e, isDimLine_of i hm hx hy hz⟩
  · simp at h

theorem isTranslateLine_of_read {F : Type} [FloatText F] {s rest : Bytes} {tx ty tz : F}
    (h : readTranslateLine s = some ((tx, ty, tz), rest)) :
    ∃ d, s = d ++ rest ∧ IsTranslateLine d tx ty tz := by
  unfold readTranslateLine at h
  split at h
  · simp at h
  rename_i d s' hl
  split at h
  · simp at h
  rename_i a b c hm
  split at h
  · rename_i x y z hx hy hz
    simp only [Option.some.injEq, Prod.mk.injEq] at h
    obtain ⟨⟨rfl, rfl, rfl⟩, rfl⟩ := h
    obtain ⟨i, e⟩ := isLine_of_readLine hl
    exact ⟨d, e, isTranslateLine_of i hm hx hy hz⟩
  · simp at h

theorem isScaleLine_of_read {F : Type} [FloatText F] {s rest : Bytes} {sc : F}
    (h : readScaleLine s = some (sc, rest)) :
    ∃ d, s = d ++ rest ∧ IsScaleLine d sc := by
  unfold readScaleLine at h
  split at h
  · simp at h
  rename_i d s' hl
  split at h
  · simp at h
  rename_i a hm
  split at h
  · simp at h
  · rename_i x hx
    simp only [Option.some.injEq, Prod.mk.injEq] at h
    obtain ⟨rfl, rfl⟩ := h
    obtain ⟨i, e⟩ := isLine_of_readLine hl
    exact ⟨d, e, isScaleLine_of i hm hx⟩

/-- Whatever header the reader accepts is a well-formed one. -/
theorem isHeader_of {F : Type} [FloatText F] {magic s rest : Bytes} {r : Region} {h : Header F}
    (hh : readHeader magic r s = some (h, rest)) :
    (∃ hb, s = hb ++ rest ∧ IsHeader magic h hb) ∧ r.sx ≤ h.nx ∧ r.sy ≤ h.ny ∧ r.sz ≤ h.nz := by
  unfold readHeader at hh
  split at hh
  · simp at hh
  rename_i l1 s1 h1
  split at hh
  · simp at hh
  rename_i hmagic
  simp only [ne_eq, not_not] at hmagic
  split at hh
  · simp at hh
  rename_i nx ny nz s2 h2
  split at hh
  · simp at hh
  rename_i hstart
  split at hh
  · simp at hh
  rename_i tx ty tz s3 h3
  split at hh
  · simp at hh
  rename_i sc s4 h4
  split at hh
  · simp at hh
  rename_i l5 s5 h5
  split at hh
  · simp at hh
  rename_i hdata
  simp only [ne_eq, not_not] at hdata
  simp only [Option.some.injEq, Prod.mk.injEq] at hh
  obtain ⟨rfl, rfl⟩ := hh
  obtain ⟨i1, e1⟩ := isLine_of_readLine h1
  obtain ⟨l2, e2, i2⟩ := isDimLine_of_read h2
  obtain ⟨l3, e3, i3⟩ := isTranslateLine_of_read h3
  obtain ⟨l4, e4, i4⟩ := isScaleLine_of_read h4
  obtain ⟨i5, e5⟩ := isLine_of_readLine h5
  refine ⟨⟨magic ++ l2 ++ l3 ++ l4 ++ ascii "data\n", ?_, l2, l3, l4, rfl, i2, i3, i4⟩, ?_⟩
  · rw [e1, e2, e3, e4, e5, ← hmagic, ← hdata]; simp
  · simp only; omega

theorem isLine_binvoxMagic : IsLine binvoxMagic := ⟨ascii "#binvox 1", by decide, by decide⟩

/-- The header written by `Write` is well formed. -/
theorem isHeader_headerBytes {F : Type} [FloatText F] [LawfulFloatText F] (magic : Bytes)
    {h : Header F} (hx : 0 ≤ h.nx) (hy : 0 ≤ h.ny) (hz : 0 ≤ h.nz)
    (mx : h.nx ≤ maxInt) (my : h.ny ≤ maxInt) (mz : h.nz ≤ maxInt) :
    IsHeader magic h (headerBytes magic h.nx h.ny h.nz h.tx h.ty h.tz h.scale) := by
  have he : IsLineEnd (ascii "\n") := ⟨[], by decide, by simp⟩
  have hw : ∀ x : F, IsWord (FloatText.fmtG x) :=
    fun x => ⟨LawfulFloatText.fmt_ne_nil x, fun c hc => (isSpace_false_iff c).mp (LawfulFloatText.fmt_nospace x c hc)⟩
  refine ⟨_, _, _, rfl, ⟨_, _, _, _, rfl, fmtInt_isNumber hx mx, fmtInt_isNumber hy my,
    fmtInt_isNumber hz mz, he⟩, ⟨_, _, _, _, rfl, hw _, hw _, hw _, he,
    LawfulFloatText.parse_fmt _, LawfulFloatText.parse_fmt _, LawfulFloatText.parse_fmt _⟩,
    ⟨_, _, rfl, hw _, he, LawfulFloatText.parse_fmt _⟩⟩

end StlDice
