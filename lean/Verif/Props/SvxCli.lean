import Verif.Model.SvxCli
import Verif.Props.SvxNames
import Mathlib.Data.List.Induction

/-! # The race in cmd/stl2svx (C68) -/

namespace StlDice

theorem interleave_two {α : Type} (x y : List α) (l : List α) (h : Interleave [x, y] l) :
    (l = [] ∧ x = [] ∧ y = []) ∨
    (∃ a x' l', x = a :: x' ∧ l = a :: l' ∧ Interleave [x', y] l') ∨
    (∃ a y' l', y = a :: y' ∧ l = a :: l' ∧ Interleave [x, y'] l') := by
  generalize hls : [x, y] = ls at h
  cases h with
  | done _ h =>
    subst hls
    exact Or.inl ⟨rfl, h x (by simp), h y (by simp)⟩
  | step pre post a x' l' h =>
    cases pre with
    | nil =>
      simp only [List.nil_append] at hls h
      injection hls with h1 h2
      subst h1 h2
      exact Or.inr (Or.inl ⟨a, x', l', rfl, rfl, h⟩)
    | cons p pre =>
      cases pre with
      | nil =>
        simp only [List.cons_append, List.nil_append] at hls h
        injection hls with h1 h2
        injection h2 with h2 h3
        subst h1 h2 h3
        exact Or.inr (Or.inr ⟨a, x', l', rfl, rfl, h⟩)
      | cons q pre =>
        have := congrArg List.length hls
        simp at this

theorem interleave_nil_left {α : Type} (y l : List α) (h : Interleave [[], y] l) : l = y := by
  induction l generalizing y with
  | nil =>
    rcases interleave_two _ _ _ h with ⟨_, _, h⟩ | ⟨_, _, _, h, _⟩ | ⟨_, _, _, _, h, _⟩
    · exact h.symm
    · cases h
    · cases h
  | cons a l ih =>
    rcases interleave_two _ _ _ h with ⟨h, _⟩ | ⟨_, _, _, h, _⟩ | ⟨a', y', l', h1, h2, h3⟩
    · cases h
    · cases h
    · injection h2 with e1 e2
      subst e1 e2
      rw [h1, ih y' h3]

/-- Every sequence of calls after `zipFile` has been set runs without a panic. -/
theorem zRun_opened (evs : List ZEv) (s : ZState) (h : s.opened = true) :
    ∃ s', zRun s evs = some s' ∧ s'.opened = true := by
  induction evs generalizing s with
  | nil => exact ⟨s, rfl, h⟩
  | cons e evs ih =>
    have : ∃ s1, zStep s e = some s1 ∧ s1.opened = true := by
      cases e
      · exact ⟨_, rfl, rfl⟩
      all_goals exact ⟨_, if_pos h, h⟩
    obtain ⟨s1, h1, h2⟩ := this
    rw [zRun, h1]
    exact ih s1 h2

/-- The calls of one run of the program, with at least one call of the main goroutine on images. -/
theorem mainEvents_cons (n : Bytes) (ns : List Bytes) :
    mainEvents (n :: ns) = .mCreate n :: .mWrite :: mainEvents ns := by
  unfold mainEvents
  rfl

/-- The archive that should be written. -/
def Spec.GoodArchive (names : List Bytes) : List (Bytes × Bool) :=
  (ascii "manifest.xml", true) :: names.map fun n => (n, true)

/-- **C68.** The program panics exactly when the main goroutine reaches its first call before the other
    goroutine has set `zipFile`; which of them comes first is up to the scheduler. -/
theorem cli_panics_iff (names : List Bytes) (evs : List ZEv) (res : Option ZState)
    (h : CliRun true names evs res) : res = none ↔ evs.head? ≠ some .gNew := by
  obtain ⟨hi, rfl⟩ := h
  have hM : ∃ e M, mainEvents names = e :: M ∧ ∀ s, s.opened = false → zStep s e = none := by
    cases names with
    | nil => exact ⟨.mClose, [], rfl, fun s hs => by simp [zStep, hs]⟩
    | cons n ns => exact ⟨.mCreate n, _, mainEvents_cons n ns, fun s hs => by simp [zStep, hs]⟩
  obtain ⟨e, M, hM, hpanic⟩ := hM
  rw [hM] at hi
  rcases interleave_two _ _ _ hi with ⟨_, h, _⟩ | ⟨a, x', l', h1, h2, _⟩ | ⟨a, y', l', h1, h2, _⟩
  · cases h
  · unfold manifestEvents at h1
    rw [if_pos rfl] at h1
    injection h1 with h1 _
    subst h1
    rw [h2]
    constructor
    · intro hn
      obtain ⟨s', hs, _⟩ := zRun_opened l' { ZState.init with opened := true } rfl
      have : zRun .init (.gNew :: l') = zRun { ZState.init with opened := true } l' := rfl
      rw [this, hs] at hn
      cases hn
    · intro hne
      exact absurd rfl hne
  · injection h1 with h1 _
    subst h1
    rw [h2]
    constructor
    · intro _ he
      have he : e = .gNew := by simpa using he
      subst he
      have := hpanic .init rfl
      cases this
    · intro _
      rw [zRun, hpanic .init rfl]

/-- **C68.** If the output file cannot be created, or if no STL file is given, the program panics instead
    of reporting an error. -/
theorem cli_no_zip_panics (names : List Bytes) (evs : List ZEv) (res : Option ZState)
    (h : CliRun false names evs res) : res = none := by
  obtain ⟨hi, rfl⟩ := h
  have hi' : Interleave [[], mainEvents names] evs := hi
  rw [interleave_nil_left _ _ hi']
  cases names with
  | nil => rfl
  | cons n ns => rfl

theorem fillLast_append (own : Bytes → Bool) (es : List (Bytes × Bool)) (e : Bytes × Bool) :
    fillLast own (es ++ [e]) = es ++ [if own e.1 then (e.1, true) else e] := by
  induction es with
  | nil =>
    show (if own e.1 then [(e.1, true)] else [e]) = [if own e.1 then (e.1, true) else e]
    split <;> rfl
  | cons a es ih =>
    cases es with
    | nil =>
      show a :: fillLast own [e] = _
      rw [show fillLast own [e] = fillLast own ([] ++ [e]) from rfl, ih]
      rfl
    | cons b es =>
      show a :: fillLast own ((b :: es) ++ [e]) = _
      rw [ih]
      rfl

/-- The main goroutine alone, starting from an open archive that ends in a complete entry. -/
theorem zRun_main (names : List Bytes) (hn : ∀ n ∈ names, n ≠ ascii "manifest.xml") (es : List (Bytes × Bool)) :
    zRun ⟨true, es, none⟩ (mainEvents names) =
      some ⟨true, es ++ names.map (fun n => (n, true)), some (es ++ names.map fun n => (n, true))⟩ := by
  induction names generalizing es with
  | nil => simp [mainEvents, zRun, zStep]
  | cons n ns ih =>
    rw [mainEvents_cons]
    have h1 : zRun ⟨true, es, none⟩ (.mCreate n :: .mWrite :: mainEvents ns) =
        zRun ⟨true, fillLast (fun n => n ≠ ascii "manifest.xml") (es ++ [(n, false)]), none⟩ (mainEvents ns) := rfl
    rw [h1, fillLast_append]
    have hne : decide (n ≠ ascii "manifest.xml") = true := by
      simpa using hn n List.mem_cons_self
    dsimp only
    rw [if_pos hne, ih (fun m hm => hn m (List.mem_cons_of_mem _ hm))]
    simp

/-- The first entry, once a second one exists, never changes. -/
def firstFixed (e : Bytes × Bool) (s : ZState) : Prop :=
  s.opened = true ∧ (∃ b r, s.entries = e :: b :: r) ∧ ∀ f, s.final = some f → f.head? = some e

theorem fillLast_two (own : Bytes → Bool) (a b : Bytes × Bool) (r : List (Bytes × Bool)) :
    ∃ b' r', fillLast own (a :: b :: r) = a :: b' :: r' := by
  show ∃ b' r', a :: fillLast own (b :: r) = a :: b' :: r'
  cases r with
  | nil =>
    show ∃ b' r', a :: (if own b.1 then [(b.1, true)] else [b]) = a :: b' :: r'
    split <;> exact ⟨_, [], rfl⟩
  | cons c r => exact ⟨b, fillLast own (c :: r), rfl⟩

theorem firstFixed_run (e : Bytes × Bool) (evs : List ZEv) (s : ZState) (h : firstFixed e s) :
    ∃ s', zRun s evs = some s' ∧ firstFixed e s' := by
  induction evs generalizing s with
  | nil => exact ⟨s, rfl, h⟩
  | cons ev evs ih =>
    have : ∃ s1, zStep s ev = some s1 ∧ firstFixed e s1 := by
      obtain ⟨ho, ⟨b, r, hes⟩, hf⟩ := h
      cases ev with
      | gNew => exact ⟨_, rfl, rfl, ⟨b, r, hes⟩, hf⟩
      | gCreate =>
        refine ⟨_, if_pos ho, ho, ⟨b, r ++ [(ascii "manifest.xml", false)], ?_⟩, hf⟩
        show s.entries ++ [_] = _
        rw [hes]
        rfl
      | gWrite =>
        refine ⟨_, if_pos ho, ho, ?_, hf⟩
        show ∃ b r, fillLast _ s.entries = _
        rw [hes]
        exact fillLast_two _ _ _ _
      | mCreate n =>
        refine ⟨_, if_pos ho, ho, ⟨b, r ++ [(n, false)], ?_⟩, hf⟩
        show s.entries ++ [_] = _
        rw [hes]
        rfl
      | mWrite =>
        refine ⟨_, if_pos ho, ho, ?_, hf⟩
        show ∃ b r, fillLast _ s.entries = _
        rw [hes]
        exact fillLast_two _ _ _ _
      | mClose =>
        refine ⟨_, if_pos ho, ho, ⟨b, r, hes⟩, ?_⟩
        intro f hff
        dsimp only at hff
        cases hsf : s.final with
        | none =>
          rw [hsf] at hff
          injection hff with hff
          rw [← hff, hes]
          rfl
        | some g =>
          rw [hsf] at hff
          injection hff with hff
          rw [← hff]
          exact hf g hsf
    obtain ⟨s1, h1, h2⟩ := this
    rw [zRun, h1]
    exact ih s1 h2

/-- Once the archive's first entry is an image, it stays so. -/
def imageFirst (s : ZState) : Prop :=
  s.opened = true ∧ (∃ a r, s.entries = a :: r ∧ a.1 ≠ ascii "manifest.xml") ∧
    ∀ f, s.final = some f → ∃ a r, f = a :: r ∧ a.1 ≠ ascii "manifest.xml"

theorem fillLast_head (own : Bytes → Bool) (a : Bytes × Bool) (r : List (Bytes × Bool)) :
    ∃ a' r', fillLast own (a :: r) = a' :: r' ∧ a'.1 = a.1 := by
  cases r with
  | nil =>
    show ∃ a' r', (if own a.1 then [(a.1, true)] else [a]) = a' :: r' ∧ a'.1 = a.1
    split <;> exact ⟨_, _, rfl, rfl⟩
  | cons b r => exact ⟨a, fillLast own (b :: r), rfl, rfl⟩

theorem imageFirst_run (evs : List ZEv) (s : ZState) (h : imageFirst s) :
    ∃ s', zRun s evs = some s' ∧ imageFirst s' := by
  induction evs generalizing s with
  | nil => exact ⟨s, rfl, h⟩
  | cons ev evs ih =>
    have : ∃ s1, zStep s ev = some s1 ∧ imageFirst s1 := by
      obtain ⟨ho, ⟨a, r, hes, hne⟩, hf⟩ := h
      cases ev with
      | gNew => exact ⟨_, rfl, rfl, ⟨a, r, hes, hne⟩, hf⟩
      | gCreate =>
        refine ⟨_, if_pos ho, ho, ⟨a, r ++ [(ascii "manifest.xml", false)], ?_, hne⟩, hf⟩
        show s.entries ++ [_] = _
        rw [hes]
        rfl
      | gWrite =>
        refine ⟨_, if_pos ho, ho, ?_, hf⟩
        show ∃ a r, fillLast _ s.entries = a :: r ∧ _
        rw [hes]
        obtain ⟨a', r', e1, e2⟩ := fillLast_head (fun n => n = ascii "manifest.xml") a r
        exact ⟨a', r', e1, by rw [e2]; exact hne⟩
      | mCreate n =>
        refine ⟨_, if_pos ho, ho, ⟨a, r ++ [(n, false)], ?_, hne⟩, hf⟩
        show s.entries ++ [_] = _
        rw [hes]
        rfl
      | mWrite =>
        refine ⟨_, if_pos ho, ho, ?_, hf⟩
        show ∃ a r, fillLast _ s.entries = a :: r ∧ _
        rw [hes]
        obtain ⟨a', r', e1, e2⟩ := fillLast_head (fun n => n ≠ ascii "manifest.xml") a r
        exact ⟨a', r', e1, by rw [e2]; exact hne⟩
      | mClose =>
        refine ⟨_, if_pos ho, ho, ⟨a, r, hes, hne⟩, ?_⟩
        intro f hff
        dsimp only at hff
        cases hsf : s.final with
        | none =>
          rw [hsf] at hff
          injection hff with hff
          rw [← hff]
          exact ⟨a, r, hes, hne⟩
        | some g =>
          rw [hsf] at hff
          injection hff with hff
          rw [← hff]
          exact hf g hsf
    obtain ⟨s1, h1, h2⟩ := this
    rw [zRun, h1]
    exact ih s1 h2

/-- **C68.** The archive holds the manifest, complete and first, and then all images, complete, iff the
    goroutine made all its three calls before the main goroutine made its first one.  In every other order
    the program panics, or the manifest comes behind an image (which svx2stl cannot read), or the
    contents of the manifest are lost. -/
theorem cli_archive_iff (n : Bytes) (ns : List Bytes) (hn : ∀ m ∈ n :: ns, m ≠ ascii "manifest.xml")
    (evs : List ZEv) (res : Option ZState) (h : CliRun true (n :: ns) evs res) :
    (∃ s, res = some s ∧ s.final = some (Spec.GoodArchive (n :: ns))) ↔
      evs = manifestEvents true ++ mainEvents (n :: ns) := by
  obtain ⟨hi, rfl⟩ := h
  constructor
  · rintro ⟨s, hs, hfin⟩
    rw [mainEvents_cons] at hi ⊢
    have hnn := hn n List.mem_cons_self
    have hi' : Interleave [[.gNew, .gCreate, .gWrite], .mCreate n :: .mWrite :: mainEvents ns] evs := hi
    show evs = .gNew :: .gCreate :: .gWrite :: .mCreate n :: .mWrite :: mainEvents ns
    rcases interleave_two _ _ _ hi' with ⟨_, h, _⟩ | ⟨a, x, l, h1, h2, h3⟩ | ⟨a, y, l, h1, h2, _⟩
    · cases h
    · injection h1 with e1 e2
      subst e1 e2 h2
      congr 1
      rcases interleave_two _ _ _ h3 with ⟨_, h, _⟩ | ⟨a, x, l1, h1, h2, h4⟩ | ⟨a, y, l1, h1, h2, _⟩
      · cases h
      · injection h1 with e1 e2
        subst e1 e2 h2
        congr 1
        rcases interleave_two _ _ _ h4 with ⟨_, h, _⟩ | ⟨a, x, l2, h1, h2, h5⟩ | ⟨a, y, l2, h1, h2, _⟩
        · cases h
        · injection h1 with e1 e2
          subst e1 e2 h2
          congr 1
          exact interleave_nil_left _ _ h5
        · injection h1 with e1 _
          subst e1 h2
          exfalso
          obtain ⟨s', r1, r2⟩ := firstFixed_run (ascii "manifest.xml", false) l2
            ⟨true, [(ascii "manifest.xml", false), (n, false)], none⟩
            ⟨rfl, ⟨_, [], rfl⟩, fun f hf => by cases hf⟩
          have : zRun .init (.gNew :: .gCreate :: .mCreate n :: l2) =
              zRun ⟨true, [(ascii "manifest.xml", false), (n, false)], none⟩ l2 := rfl
          rw [this, r1] at hs
          injection hs with hs
          subst hs
          have := r2.2.2 _ hfin
          simp [Spec.GoodArchive] at this
      · injection h1 with e1 _
        subst e1 h2
        exfalso
        obtain ⟨s', r1, r2⟩ := imageFirst_run l1 ⟨true, [(n, false)], none⟩
          ⟨rfl, ⟨_, [], rfl, hnn⟩, fun f hf => by cases hf⟩
        have : zRun .init (.gNew :: .mCreate n :: l1) = zRun ⟨true, [(n, false)], none⟩ l1 := rfl
        rw [this, r1] at hs
        injection hs with hs
        subst hs
        obtain ⟨a, r, e, hne⟩ := r2.2.2 _ hfin
        unfold Spec.GoodArchive at e
        injection e with e _
        exact hne (by rw [← e])
    · injection h1 with e1 _
      subst e1 h2
      cases hs
  · rintro rfl
    have h1 : zRun .init (manifestEvents true ++ mainEvents (n :: ns)) =
        zRun ⟨true, [(ascii "manifest.xml", true)], none⟩ (mainEvents (n :: ns)) := by
      unfold manifestEvents
      rw [if_pos rfl]
      have : fillLast (fun n => decide (n = ascii "manifest.xml")) [(ascii "manifest.xml", false)] =
          [(ascii "manifest.xml", true)] := by
        unfold fillLast
        rw [if_pos (by simp)]
      show zRun ⟨true, fillLast (fun n => decide (n = ascii "manifest.xml")) [(ascii "manifest.xml", false)], none⟩ _ = _
      rw [this]
      rfl
    rw [h1, zRun_main _ hn]
    exact ⟨_, rfl, rfl⟩

/-- The images of a real job are never called like the manifest. -/
theorem cliNames_ne (dim nx ny nz : Int) (dimZ : Nat) :
    ∀ m ∈ cliNames dim nx ny nz dimZ, m ≠ ascii "manifest.xml" := by
  intro m hm
  obtain ⟨k, _, rfl⟩ := List.mem_map.mp hm
  exact sliceName_ne_manifest _ _ _ _ _

/-- Some order of the calls is possible in which the program panics, some in which the first image
    precedes the manifest, and one which is right (for a job with one slice). -/
example : ∃ evs, CliRun true (cliNames 2 1 1 1 1) evs none := by
  refine ⟨mainEvents (cliNames 2 1 1 1 1) ++ manifestEvents true, ?_, rfl⟩
  have h : ∀ (y l : List ZEv), Interleave [l, []] l → Interleave [l, y] (y ++ l) := by
    intro y l hl
    induction y with
    | nil => exact hl
    | cons a y ih => exact Interleave.step [l] [] a y _ ih
  have h2 : ∀ l : List ZEv, Interleave [l, []] l := by
    intro l
    induction l with
    | nil => exact Interleave.done _ (by simp)
    | cons a l ih => exact Interleave.step [] [[]] a l _ ih
  exact h _ _ (h2 _)

/-- Main first, the manifest last: the program panics, as the theorem says of any run that begins like this. -/
example : ∀ res, CliRun true (cliNames 2 1 1 1 1) (mainEvents (cliNames 2 1 1 1 1) ++ manifestEvents true) res → res = none :=
  fun res h => (cli_panics_iff _ _ res h).mpr (by
    unfold cliNames mainEvents
    decide)

/-- The order the author had in mind: the whole manifest and then the images. -/
theorem exCliGood : CliRun true (cliNames 2 1 1 1 1) (manifestEvents true ++ mainEvents (cliNames 2 1 1 1 1))
    (zRun .init (manifestEvents true ++ mainEvents (cliNames 2 1 1 1 1))) := by
  refine ⟨?_, rfl⟩
  have h : ∀ (y l : List ZEv), Interleave [[], l] l → Interleave [y, l] (y ++ l) := by
    intro y l hl
    induction y with
    | nil => exact hl
    | cons a y ih => exact Interleave.step [] [l] a y _ ih
  have h2 : ∀ l : List ZEv, Interleave [[], l] l := by
    intro l
    induction l with
    | nil => exact Interleave.done _ (by simp)
    | cons a l ih => exact Interleave.step [[]] [] a l _ ih
  exact h _ _ (h2 _)

/-- It yields a good archive. -/
example : ∃ s, zRun .init (manifestEvents true ++ mainEvents (cliNames 2 1 1 1 1)) = some s ∧
    s.final = some (Spec.GoodArchive (cliNames 2 1 1 1 1)) :=
  (cli_archive_iff _ _ (cliNames_ne 2 1 1 1 1) _ _ exCliGood).mpr rfl

/-- Without a zip file the program panics: no order of the calls does anything else. -/
example : ∃ evs res, CliRun false (cliNames 2 1 1 1 1) evs res ∧ res = none := by
  have h2 : ∀ l : List ZEv, Interleave [[], l] l := by
    intro l
    induction l with
    | nil => exact Interleave.done _ (by simp)
    | cons a l ih => exact Interleave.step [[]] [] a l _ ih
  have h : CliRun false (cliNames 2 1 1 1 1) (manifestEvents false ++ mainEvents (cliNames 2 1 1 1 1))
      (zRun .init (manifestEvents false ++ mainEvents (cliNames 2 1 1 1 1))) := by
    refine ⟨?_, rfl⟩
    have h1 : ∀ (y l : List ZEv), Interleave [y, l] (y ++ l) := by
      intro y l
      induction y with
      | nil => exact h2 l
      | cons a y ih => exact Interleave.step [] [l] a y _ ih
    exact h1 _ _
  exact ⟨_, _, h, cli_no_zip_panics _ _ _ h⟩

end StlDice
