import Verif.Spec.SvxNet
import Verif.Props.CmdLines
import Verif.Props.SvxNames
import Verif.Props.Svx

/-! # C90: a network job of stl2svx from the client's command line to its file -/

namespace StlDice
namespace Net
open Spec BinVOX Flag Cmd

/-! ## The list of files -/

theorem split_ne (sep : UInt8) : ∀ s, split sep s ≠ []
  | [] => by unfold split; exact List.cons_ne_nil _ _
  | c :: s => by
    unfold split
    split
    · exact List.cons_ne_nil _ _
    · split <;> exact List.cons_ne_nil _ _

theorem intercalate_two (sep : UInt8) (p q : Bytes) (ps : List Bytes) :
    [sep].intercalate (p :: q :: ps) = p ++ sep :: [sep].intercalate (q :: ps) := by
  simp [List.intercalate]

theorem intercalate_one (sep : UInt8) (p : Bytes) : [sep].intercalate [p] = p := by
  simp [List.intercalate]

theorem split_pieces (sep : UInt8) : ∀ s, Pieces sep s (split sep s)
  | [] => ⟨split_ne _ _, by unfold split; simp, by unfold split; simp [List.intercalate]⟩
  | c :: s => by
    obtain ⟨h1, h2, h3⟩ := split_pieces sep s
    refine ⟨split_ne _ _, ?_, ?_⟩
    · unfold split
      split
      · intro p hp
        rcases List.mem_cons.mp hp with rfl | hp
        · exact List.not_mem_nil
        · exact h2 p hp
      · rename_i hc
        split
        · rename_i e; exact absurd e h1
        · rename_i p ps e
          rw [e] at h2
          intro q hq
          rcases List.mem_cons.mp hq with rfl | hq
          · intro hm
            rcases List.mem_cons.mp hm with e' | hm
            · exact hc e'.symm
            · exact h2 p List.mem_cons_self hm
          · exact h2 q (List.mem_cons_of_mem _ hq)
    · unfold split
      split
      · rename_i hc
        obtain ⟨q, qs, e⟩ := List.exists_cons_of_ne_nil h1
        rw [e] at h3 ⊢
        rw [intercalate_two, ← h3, hc]
        rfl
      · split
        · rename_i e; exact absurd e h1
        · rename_i p ps e
          rw [e] at h3
          cases ps with
          | nil =>
            rw [intercalate_one] at h3 ⊢
            rw [h3]
          | cons q qs =>
            rw [intercalate_two] at h3 ⊢
            rw [h3]
            rfl

theorem first_piece {sep : UInt8} {p q r t : Bytes} (np : sep ∉ p) (nq : sep ∉ q) (h : p ++ sep :: r = q ++ sep :: t) :
    p = q ∧ r = t := by
  induction p generalizing q with
  | nil =>
    cases q with
    | nil => injection h with _ h; exact ⟨rfl, h⟩
    | cons c q => injection h with h _; exact (nq (h ▸ List.mem_cons_self)).elim
  | cons a p ih =>
    cases q with
    | nil => injection h with h _; exact (np (h ▸ List.mem_cons_self)).elim
    | cons c q =>
      injection h with h1 h2
      obtain ⟨e1, e2⟩ := ih (fun h => np (List.mem_cons_of_mem _ h)) (fun h => nq (List.mem_cons_of_mem _ h)) h2
      exact ⟨by rw [h1, e1], e2⟩

theorem pieces_unique (sep : UInt8) {s : Bytes} {ps qs : List Bytes} (hp : Pieces sep s ps) (hq : Pieces sep s qs) : ps = qs := by
  induction ps generalizing s qs with
  | nil => exact absurd rfl hp.1
  | cons p ps ih =>
    obtain ⟨_, p2, p3⟩ := hp
    obtain ⟨q1, q2, q3⟩ := hq
    obtain ⟨q, qs, rfl⟩ := List.exists_cons_of_ne_nil q1
    have np : sep ∉ p := p2 p List.mem_cons_self
    have nq : sep ∉ q := q2 q List.mem_cons_self
    have cut : ∀ (a b r : Bytes), sep ∉ a → sep ∉ b → a ++ sep :: r = b → False := by
      intro a b r _ hb e
      exact hb (e ▸ List.mem_append_right _ List.mem_cons_self)
    cases ps with
    | nil =>
      rw [intercalate_one] at p3
      subst p3
      cases qs with
      | nil => rw [intercalate_one] at q3; rw [q3]
      | cons q' qs =>
        rw [intercalate_two] at q3
        exact (cut q s _ nq np q3.symm).elim
    | cons p' ps =>
      rw [intercalate_two] at p3
      cases qs with
      | nil =>
        rw [intercalate_one] at q3
        subst q3
        exact (cut p s _ np nq p3.symm).elim
      | cons q' qs =>
        rw [intercalate_two] at q3
        rw [p3] at q3
        have key := first_piece np nq q3
        obtain ⟨e, e'⟩ := key
        have := ih (s := [sep].intercalate (p' :: ps)) ⟨List.cons_ne_nil _ _, fun x hx => p2 x (List.mem_cons_of_mem _ hx), rfl⟩
          (qs := q' :: qs) ⟨List.cons_ne_nil _ _, fun x hx => q2 x (List.mem_cons_of_mem _ hx), e'⟩
        rw [e, this]

/-- **C90.** The value of `-stl` is taken apart at every comma: the files are the pieces in between (also empty ones). -/
theorem split_iff (sep : UInt8) (s : Bytes) (parts : List Bytes) : split sep s = parts ↔ Pieces sep s parts :=
  ⟨fun h => h ▸ split_pieces sep s, fun h => pieces_unique sep (split_pieces sep s) h⟩

example : split 44 (ascii "base.stl,,cut.stl") = [ascii "base.stl", [], ascii "cut.stl"] := by decide

variable {F : Type}

theorem loadSTL_iff {lib : Lib F} {d : Disk} {names : List Bytes} : ∀ {files}, loadSTL lib d names = some files ↔
    FilesHold lib.load d names files := by
  unfold FilesHold
  induction names with
  | nil =>
    intro files
    constructor
    · intro h
      injection h with h
      subst h
      exact .nil
    · intro h
      cases h
      rfl
  | cons a as ih =>
    intro files
    have un : loadSTL lib d (a :: as) = match (d a).bind lib.load with
      | none => none
      | some ts => match loadSTL lib d as with
        | none => none
        | some rest => some (ts :: rest) := rfl
    rw [un]
    constructor
    · intro h
      split at h
      · cases h
      · rename_i ts hts
        split at h
        · cases h
        · rename_i rest hr
          injection h with h
          subst h
          refine .cons ?_ (ih.mp hr)
          obtain ⟨c, h1, h2⟩ := Option.bind_eq_some_iff.mp hts
          exact ⟨c, h1, h2⟩
    · intro h
      cases h with
      | cons h1 h2 =>
        obtain ⟨c, e1, e2⟩ := h1
        rw [Option.bind_eq_some_iff.mpr ⟨c, e1, e2⟩]
        dsimp only
        rw [ih.mpr h2]

/-- **C90.** The flags of the client: `-dim` (8192), `-nx` (8), `-ny` (8), `-nz` (1), `-stl`, `-prefix` ("out"), `-master`;
    files given as arguments are ignored. -/
theorem client_flags_iff {args : List Bytes} {fl : ClientFlags} : clientFlags args = some fl ↔
    ∃ sets rest, CommandLine clientKind (fun _ => false) sets rest args ∧
      IntFlag sets "dim" 8192 fl.dim ∧ IntFlag sets "nx" 8 fl.nx ∧ IntFlag sets "ny" 8 fl.ny ∧ IntFlag sets "nz" 1 fl.nz ∧
      StrFlag sets "stl" [] fl.stl ∧ StrFlag sets "prefix" (ascii "out") fl.pre ∧ StrFlag sets "master" [] fl.master := by
  unfold clientFlags
  cases hp : parse clientKind (fun _ => false) args with
  | exit b =>
    constructor
    · intro h; cases h
    · rintro ⟨sets, files, h, -⟩
      rw [parse_iff.mpr h] at hp
      cases hp
  | ok sets rest =>
    dsimp only
    have hc := parse_iff.mp hp
    constructor
    · intro h
      injection h with h
      subst h
      exact ⟨sets, rest, hc, (getInt_iff hc.1 (by decide)).mp rfl, (getInt_iff hc.1 (by decide)).mp rfl,
        (getInt_iff hc.1 (by decide)).mp rfl, (getInt_iff hc.1 (by decide)).mp rfl, getStr_iff.mp rfl, getStr_iff.mp rfl,
        getStr_iff.mp rfl⟩
    · rintro ⟨sets', files, h, h1, h2, h3, h4, h5, h6, h7⟩
      rw [parse_iff.mpr h] at hp
      injection hp with e1 e2
      subst e1
      have e5 : fl.stl = getStr sets' (ascii "stl") := getStr_iff.mpr h5
      have e7 : fl.master = getStr sets' (ascii "master") := getStr_iff.mpr h7
      rw [← (getInt_iff h.1 (by decide)).mpr h1, ← (getInt_iff h.1 (by decide)).mpr h2,
        ← (getInt_iff h.1 (by decide)).mpr h3, ← (getInt_iff h.1 (by decide)).mpr h4, ← e5, ← e7, ← getStr_iff.mpr h6]

section
variable {lib : Lib F} {serve : Bytes → Request F → Option Bytes → Prop} {d d' : Disk} {args : List Bytes} {e : Exit}

/-- **C90.** The client changes no file but its output, however it ends. -/
theorem client_touches (h : ClientProc lib serve d args d' e) {n : Bytes}
    (hn : ∀ fl, clientFlags args = some fl → n ≠ outName fl.pre fl.dim fl.nx fl.ny fl.nz) : d' n = d n := by
  cases h with
  | saved hf hs hl hr hw =>
    have := hn _ hf
    cases hw with
    | ok => exact if_neg this
    | notCreated => rfl
    | part _ => exact if_neg this
  | _ => rfl

/-- **C90.** If the client succeeds (and was not only asked for help), every file named in `-stl` could be read, the master
    was asked for exactly these files with the numbers of the flags, and what it answered is in the output file. -/
theorem client_done (h : ClientProc lib serve d args d' .done) :
    (parse clientKind (fun _ => false) args = .exit true ∧ d' = d) ∨
    ∃ fl names files svx, clientFlags args = some fl ∧ fl.stl ≠ [] ∧ Pieces 44 fl.stl names ∧ FilesHold lib.load d names files ∧
      serve fl.master ⟨fl.dim, fl.nx, fl.ny, fl.nz, fl.pre, files⟩ (some svx) ∧
      d' = put d (outName fl.pre fl.dim fl.nx fl.ny fl.nz) svx := by
  generalize he : Exit.done = e at h
  cases h with
  | @usage ok hp =>
    cases ok with
    | true => exact .inl ⟨hp, rfl⟩
    | false => cases he
  | noStl _ _ => cases he
  | noDial _ _ => cases he
  | unreadable _ _ _ => cases he
  | refused _ _ _ _ => cases he
  | @saved fl files svx d' ok hf hs hl hr hw =>
    right
    cases hw with
    | ok => exact ⟨fl, _, files, svx, hf, hs, split_pieces _ _, loadSTL_iff.mp hl, hr, rfl⟩
    | notCreated => cases he
    | part _ => cases he

/-- **C90.** However the files are, the client may fail without changing any (the call may fail). -/
theorem client_can_fail {fl : ClientFlags} (hf : clientFlags args = some fl) : ClientProc lib serve d args d .fatal := by
  by_cases hs : fl.stl = []
  · exact .noStl hf hs
  · exact .noDial hf hs

/-- **C90.** The client can succeed in making a file iff `-stl` is given, all its files can be read and the master can answer. -/
theorem client_can_succeed {fl : ClientFlags} (hf : clientFlags args = some fl) :
    (∃ d', ClientProc lib serve d args d' .done) ↔
      fl.stl ≠ [] ∧ ∃ names files svx, Pieces 44 fl.stl names ∧ FilesHold lib.load d names files ∧
        serve fl.master ⟨fl.dim, fl.nx, fl.ny, fl.nz, fl.pre, files⟩ (some svx) := by
  constructor
  · rintro ⟨d', h⟩
    rcases client_done h with ⟨hp, _⟩ | ⟨fl', names, files, svx, h1, h2, h3, h4, h5, _⟩
    · unfold clientFlags at hf
      rw [hp] at hf
      cases hf
    · rw [hf] at h1
      injection h1 with h1
      subst h1
      exact ⟨h2, names, files, svx, h3, h4, h5⟩
  · rintro ⟨h2, names, files, svx, h3, h4, h5⟩
    have hl : loadSTL lib d (split 44 fl.stl) = some files := by
      rw [(split_iff _ _ _).mpr h3]
      exact loadSTL_iff.mpr h4
    exact ⟨_, ClientProc.saved hf h2 hl h5 .ok⟩

/-- **C90.** A file that cannot be read, or a call that fails, ends the client with everything as it was. -/
theorem client_refused {fl : ClientFlags} (hf : clientFlags args = some fl)
    (hno : ∀ names files svx, Pieces 44 fl.stl names → FilesHold lib.load d names files →
      ¬ serve fl.master ⟨fl.dim, fl.nx, fl.ny, fl.nz, fl.pre, files⟩ (some svx))
    (h : ClientProc lib serve d args d' e) : d' = d ∧ e = .fatal := by
  have same : ∀ fl', clientFlags args = some fl' → fl' = fl := by
    intro fl' h'
    rw [hf] at h'
    injection h' with h'
    exact h'.symm
  cases h with
  | usage hp =>
    unfold clientFlags at hf
    rw [hp] at hf
    cases hf
  | noStl _ _ => exact ⟨rfl, rfl⟩
  | noDial _ _ => exact ⟨rfl, rfl⟩
  | unreadable _ _ _ => exact ⟨rfl, rfl⟩
  | refused _ _ _ _ => exact ⟨rfl, rfl⟩
  | saved hf' hs hl hr hw =>
    have := same _ hf'
    subst this
    exact absurd hr (hno _ _ _ (split_pieces _ _) (loadSTL_iff.mp hl))

end

/-- **C90.** The name of the output tells prefix and numbers. -/
theorem outName_injective {p p' : Bytes} {a b c n a' b' c' n' : Int} (h0 : 0 ≤ a ∧ 0 ≤ b ∧ 0 ≤ c ∧ 0 ≤ n)
    (h0' : 0 ≤ a' ∧ 0 ≤ b' ∧ 0 ≤ c' ∧ 0 ≤ n') (h : outName p a b c n = outName p' a' b' c' n') :
    p = p' ∧ a = a' ∧ b = b' ∧ c = c' ∧ n = n' := by
  have dig : ∀ i : Int, 0 ≤ i → ∀ c ∈ fmtInt i, isDigit c = true := by
    intro i hi c hc; rw [fmtInt_nonneg hi] at hc; exact fmtNat_digits _ c hc
  unfold outName at h
  have h := List.append_cancel_right h
  rw [ascii_dash] at h
  obtain ⟨h1, h⟩ := sep_right _ _ _ _ (dig _ h0.2.2.2) (dig _ h0'.2.2.2) h
  obtain ⟨h2, h⟩ := sep_right _ _ _ _ (dig _ h0.2.2.1) (dig _ h0'.2.2.1) h
  obtain ⟨h3, h⟩ := sep_right _ _ _ _ (dig _ h0.2.1) (dig _ h0'.2.1) h
  obtain ⟨h4, h⟩ := sep_right _ _ _ _ (dig _ h0.1) (dig _ h0'.1) h
  exact ⟨h, StlDice.fmtInt_injective h4, StlDice.fmtInt_injective h3, StlDice.fmtInt_injective h2, StlDice.fmtInt_injective h1⟩

/-! ## What the master accepts -/

section
variable [GoFloat F] {lib : Lib F} {q : Request F}

/-- **C90.** A request of which some number of divisions is zero ends the master (and with it all its jobs), unless it has no
    triangles in its first file. -/
theorem newJob_panics_iff : newJob lib q = .panic ↔
    (∃ t ts cuts, q.StlFiles = (t :: ts) :: cuts) ∧ (q.NX = 0 ∨ q.NY = 0 ∨ q.NZ = 0) := by
  unfold newJob Lib.stlNew layout
  cases q.StlFiles with
  | nil =>
    constructor
    · intro h; cases h
    · rintro ⟨⟨t, ts, cuts, h⟩, _⟩; cases h
  | cons base cuts =>
    dsimp only
    cases base with
    | nil =>
      constructor
      · intro h; cases h
      · rintro ⟨⟨t, ts, cuts, h⟩, _⟩; cases h
    | cons t ts =>
      rw [if_neg (List.cons_ne_nil _ _)]
      by_cases hz : q.NX = 0 ∨ q.NY = 0 ∨ q.NZ = 0
      · rw [if_pos hz]
        exact ⟨fun _ => ⟨⟨t, ts, cuts, rfl⟩, hz⟩, fun _ => rfl⟩
      · rw [if_neg hz]
        constructor
        · intro h
          split at h
          · cases h
          · cases h
          · rename_i e
            split at e <;> cases e
        · rintro ⟨_, h⟩; exact absurd h hz

/-- **C90.** A job starts iff the first file has triangles and can be divided as asked; it is that of the request. -/
theorem newJob_ok_iff {r : SvxReq F} : newJob lib q = .ok r ↔
    ∃ base cuts, q.StlFiles = base :: cuts ∧ base ≠ [] ∧
      layout (lib.bbox base) (boxScale (lib.bbox base)) q.Dim q.NX q.NY q.NZ = .ok r.L ∧
      r = ⟨q.Dim, q.NX, q.NY, q.NZ, q.OutPrefix, r.L, lib.bbox base⟩ := by
  unfold newJob Lib.stlNew
  cases q.StlFiles with
  | nil =>
    constructor
    · intro h; cases h
    · rintro ⟨base, cuts, h, _⟩; cases h
  | cons base cuts =>
    dsimp only
    constructor
    · intro h
      split at h
      · cases h
      · rename_i hb
        refine ⟨base, cuts, rfl, hb, ?_⟩
        split at h
        · rename_i L hL
          injection h with h
          subst h
          exact ⟨hL, rfl⟩
        · cases h
        · cases h
    · rintro ⟨base', cuts', h, hb, hL, hr⟩
      injection h with h1 h2
      subst h1 h2
      rw [if_neg hb, hL]
      dsimp only
      rw [← hr]

end

/-! ## The jobs of a master whose agents work on the request -/

/-- What one step does to the tasks of a job. -/
theorem step_task {s s' : MState F} {l : MLabel F} (hs : MStep s l s') {i : Nat} {J' : JobState F} (hj : s'.job i = some J') :
    (s.job i = none ∧ l = .start i J'.req ∧ ∀ z, J'.task z = .waiting) ∨
    ∃ J, s.job i = some J ∧ J'.req = J.req ∧ ∀ z, J'.task z = J.task z ∨ (l = .dialErr i z ∧ J'.task z = .waiting) ∨
      (∃ a, l = .take i z a ∧ J'.task z = .busy a) ∨ (∃ png, l = .sliceOk i z png ∧ J'.task z = .writing png) ∨
      (l = .sliceErr i z ∧ J'.task z = .dropped) ∨ (∃ png, J.task z = .writing png ∧ J'.task z = .done png) := by
  have set : ∀ {k z : Nat} {K : JobState F} {t : Task}, upd s.job k (some (K.setTask z t)) i = some J' → s.job k = some K →
      (∃ J, s.job i = some J ∧ J'.req = J.req ∧ ∀ x, J'.task x = J.task x ∨ (i = k ∧ x = z ∧ J'.task x = t ∧ J = K)) := by
    intro k z K t h hk
    by_cases hi : i = k
    · subst hi
      rw [upd_same] at h
      injection h with h
      subst h
      refine ⟨K, hk, rfl, ?_⟩
      intro x
      by_cases hx : x = z
      · right
        refine ⟨rfl, hx, ?_, rfl⟩
        subst hx
        exact upd_same _ _ _
      · left
        exact upd_ne _ _ _ _ hx
    · rw [upd_ne _ _ _ _ hi] at h
      exact ⟨J', h, rfl, fun x => .inl rfl⟩
  have phase : ∀ {k : Nat} {K : JobState F} {p : JobPhase}, upd s.job k (some { K with phase := p }) i = some J' → s.job k = some K →
      (∃ J, s.job i = some J ∧ J'.req = J.req ∧ ∀ x, J'.task x = J.task x) := by
    intro k K p h hk
    by_cases hi : i = k
    · subst hi
      rw [upd_same] at h
      injection h with h
      subst h
      exact ⟨K, hk, rfl, fun x => rfl⟩
    · rw [upd_ne _ _ _ _ hi] at h
      exact ⟨J', h, rfl, fun x => rfl⟩
  cases hs with
  | register a => exact .inr ⟨J', hj, rfl, fun z => .inl rfl⟩
  | start k r hk =>
    change upd s.job k _ i = some J' at hj
    by_cases hi : i = k
    · subst hi
      rw [upd_same] at hj
      injection hj with hj
      subst hj
      exact .inl ⟨hk, rfl, fun z => rfl⟩
    · rw [upd_ne _ _ _ _ hi] at hj
      exact .inr ⟨J', hj, rfl, fun z => .inl rfl⟩
  | manifest k w K hk hp hw =>
    obtain ⟨J, h1, h2, h3⟩ := phase hj hk
    exact .inr ⟨J, h1, h2, fun z => .inl (h3 z)⟩
  | blanks k w K hk hp hw =>
    obtain ⟨J, h1, h2, h3⟩ := phase hj hk
    exact .inr ⟨J, h1, h2, fun z => .inl (h3 z)⟩
  | finish k w K hk hp hall hw =>
    obtain ⟨J, h1, h2, h3⟩ := phase hj hk
    exact .inr ⟨J, h1, h2, fun z => .inl (h3 z)⟩
  | take k x a K hk hp hz ht ha =>
    obtain ⟨J, h1, h2, h3⟩ := set hj hk
    refine .inr ⟨J, h1, h2, fun z => ?_⟩
    rcases h3 z with h | ⟨rfl, rfl, h, _⟩
    · exact .inl h
    · exact .inr (.inr (.inl ⟨a, rfl, h⟩))
  | dialErr k x a K hk ht =>
    obtain ⟨J, h1, h2, h3⟩ := set hj hk
    refine .inr ⟨J, h1, h2, fun z => ?_⟩
    rcases h3 z with h | ⟨rfl, rfl, h, _⟩
    · exact .inl h
    · exact .inr (.inl ⟨rfl, h⟩)
  | sliceOk k x a png K hk ht =>
    obtain ⟨J, h1, h2, h3⟩ := set hj hk
    refine .inr ⟨J, h1, h2, fun z => ?_⟩
    rcases h3 z with h | ⟨rfl, rfl, h, _⟩
    · exact .inl h
    · exact .inr (.inr (.inr (.inl ⟨png, rfl, h⟩)))
  | sliceErr k x a K hk ht =>
    obtain ⟨J, h1, h2, h3⟩ := set hj hk
    refine .inr ⟨J, h1, h2, fun z => ?_⟩
    rcases h3 z with h | ⟨rfl, rfl, h, _⟩
    · exact .inl h
    · exact .inr (.inr (.inr (.inr (.inl ⟨rfl, h⟩))))
  | write k x w png K hk ht hw =>
    obtain ⟨J, h1, h2, h3⟩ := set hj hk
    refine .inr ⟨J, h1, h2, fun z => ?_⟩
    rcases h3 z with h | ⟨rfl, rfl, h, rfl⟩
    · exact .inl h
    · exact .inr (.inr (.inr (.inr (.inr ⟨png, ht, h⟩))))

theorem reach_mono {P Q : MState F → MLabel F → Prop} (hPQ : ∀ s l, P s l → Q s l) {s : MState F} (h : MReach P s) : MReach Q s := by
  induction h with
  | init => exact .init
  | step _ hp hs ih => exact .step ih (hPQ _ _ hp) hs

section
variable [GoFloat F] {lib : Lib F} {codec : Codec F} {reqs : Nat → Request F}

/-- Every job is that of its request, and every image it has came from an agent working on that request. -/
theorem honest {P : MState F → MLabel F → Prop} {s : MState F} (h : MReach (fun s l => P s l ∧ Serving lib codec reqs s l) s) :
    ∀ i J, s.job i = some J → newJob lib (reqs i) = .ok J.req ∧
      ∀ z png, (J.task z = .writing png ∨ J.task z = .done png) →
        ∃ img, Agent lib (reqs i) z (some img) ∧ png = codec.png img := by
  induction h with
  | init => intro i J hJ; cases hJ
  | @step s s' l _ hP hs ih =>
    intro i J' hj
    rcases step_task hs hj with ⟨_, hl, hw⟩ | ⟨J, hJ, hreq, ht⟩
    · refine ⟨hP.2.1 i _ hl, ?_⟩
      intro z png h
      rw [hw z] at h
      rcases h with h | h <;> cases h
    · obtain ⟨i1, i2⟩ := ih i J hJ
      refine ⟨hreq ▸ i1, ?_⟩
      intro z png h
      rcases ht z with e | ⟨_, e⟩ | ⟨a, _, e⟩ | ⟨p, hl, e⟩ | ⟨_, e⟩ | ⟨p, hp, e⟩
      · rw [e] at h
        exact i2 z png h
      · rw [e] at h; rcases h with h | h <;> cases h
      · rw [e] at h; rcases h with h | h <;> cases h
      · rw [e] at h
        rcases h with h | h
        · injection h with h
          subst h
          exact hP.2.2 i z p hl
        · cases h
      · rw [e] at h; rcases h with h | h <;> cases h
      · rw [e] at h
        rcases h with h | h
        · cases h
        · injection h with h
          subst h
          exact i2 z p (.inl hp)

omit [GoFloat F] in
/-- No slice is dropped if no call of an agent fails. -/
theorem none_dropped {P : MState F → MLabel F → Prop} (hP : ∀ s l, P s l → ∀ i z, l ≠ .sliceErr i z) {s : MState F}
    (h : MReach P s) : ∀ i J, s.job i = some J → ∀ z, J.task z ≠ .dropped := by
  induction h with
  | init => intro i J hJ; cases hJ
  | @step s s' l _ hp hs ih =>
    intro i J' hj z
    rcases step_task hs hj with ⟨_, hl, hw⟩ | ⟨J, hJ, hreq, ht⟩
    · rw [hw z]; intro h; cases h
    · rcases ht z with e | ⟨_, e⟩ | ⟨a, _, e⟩ | ⟨p, hl, e⟩ | ⟨hl, _⟩ | ⟨p, _, e⟩
      · rw [e]; exact ih i J hJ z
      · rw [e]; intro h; cases h
      · rw [e]; intro h; cases h
      · rw [e]; intro h; cases h
      · exact absurd hl (hP _ _ hp i z)
      · rw [e]; intro h; cases h

/-- No job starts while another one runs. -/
abbrev Alone (s : MState F) (l : MLabel F) : Prop := NoOverlap s l

/-- No job starts while another one runs, and no call of an agent fails. -/
def AllWell (s : MState F) (l : MLabel F) : Prop := NoOverlap s l ∧ ∀ i z, l ≠ .sliceErr i z

/-- **C90.** What the client gets from a master that runs one job at a time, whatever else happens: the request was acceptable, and the answer
    is an archive with the manifest, then the two black images and then, in some order, images of some of the slices
    `0 … DimZ - 1` of this request, each made by an agent for that slice; all of them if no call of an agent failed. -/
theorem answer_exact {P : MState F → MLabel F → Prop} (hP : ∀ s l, P s l → Alone s l) {q : Request F} {svx : Bytes}
    (h : Answers lib codec P q (some svx)) :
    ∃ (r : SvxReq F) (present : Nat → Bool) (img : Nat → Image) (rest : List (Bytes × Content F)), newJob lib q = .ok r ∧
      svx = codec.zip ((ascii "manifest.xml", .manifest r) ::
        (sliceName q.Dim q.NX q.NY q.NZ 0, .blank (q.Dim + 2)) ::
        (sliceName q.Dim q.NX q.NY q.NZ (r.L.dimZ + 1), .blank (q.Dim + 2)) :: rest) ∧
      rest.Perm (((List.range r.L.dimZ.toNat).filter present).map fun z : Nat =>
        (sliceName q.Dim q.NX q.NY q.NZ (z + 1), .raw (codec.png (img z)))) ∧
      (∀ z < r.L.dimZ.toNat, present z = true → Agent lib q z (some (img z))) ∧
      ((∀ s l, P s l → AllWell s l) → ∀ z < r.L.dimZ.toNat, present z = true) := by
  generalize ho : some svx = o at h
  cases h with
  | error => cases ho
  | @archive reqs s i J es req hs hq hj hreq hp =>
    injection ho with ho
    have hq1 := honest hs i J hj
    rw [hq] at hq1
    obtain ⟨hnew, hag⟩ := hq1
    have hn := reach_mono (Q := NoOverlap) (fun s l h => hP s l h.1) hs
    obtain ⟨hall, es', he, hperm⟩ := job_reply_exact s hn i J hj _ hp
    injection he with he
    injection he with he
    subst he
    have hr := hreq i J hj
    obtain ⟨base, cuts, _, _, _, hrq⟩ := newJob_ok_iff.mp hnew
    have d1 : J.req.Dim = q.Dim := by rw [hrq]
    have d2 : J.req.NX = q.NX := by rw [hrq]
    have d3 : J.req.NY = q.NY := by rw [hrq]
    have d4 : J.req.NZ = q.NZ := by rw [hrq]
    classical
    let present : Nat → Bool := fun z => match J.task z with | .done _ => true | _ => false
    have hpres : ∀ z, present z = true → ∃ png, J.task z = .done png := by
      intro z hz
      cases ht : J.task z with
      | done p => exact ⟨p, rfl⟩
      | _ =>
        exfalso
        have : present z = (match J.task z with | .done _ => true | _ => false) := rfl
        rw [ht] at this
        rw [this] at hz
        cases hz
    let img : Nat → Image := fun z => if hz : ∃ im, Agent lib q z (some im) ∧ J.task z = .done (codec.png im) then hz.choose
      else Image.blank 0 0
    have himg : ∀ z, present z = true → Agent lib q z (some (img z)) ∧ J.task z = .done (codec.png (img z)) := by
      intro z hz
      obtain ⟨png, ht⟩ := hpres z hz
      obtain ⟨im, h1, h2⟩ := hag z png (.inr ht)
      have hx : ∃ im, Agent lib q z (some im) ∧ J.task z = .done (codec.png im) := ⟨im, h1, h2 ▸ ht⟩
      have e : img z = hx.choose := dif_pos hx
      rw [e]
      exact hx.choose_spec
    refine ⟨J.req, present, img, es'.map (content req), hnew, ?_, ?_, ?_, ?_⟩
    · rw [ho]
      congr 1
      unfold headerEntries
      rw [List.map_append]
      have e1 : content req (manifestEntry i) = (ascii "manifest.xml", .manifest J.req) := by
        unfold content manifestEntry; dsimp only; rw [hr]
      have e2 : ∀ k, content req (blankEntry i J.req k) = (sliceName q.Dim q.NX q.NY q.NZ k, .blank (q.Dim + 2)) := by
        intro k
        unfold content blankEntry; dsimp only; rw [hr, d1, d2, d3, d4]
      rw [List.map_cons, List.map_cons, List.map_cons, List.map_nil, e1, e2, e2]
      rfl
    · refine (hperm.map (content req)).trans ?_
      have : (doneSlices i J).map (content req) = ((List.range J.req.L.dimZ.toNat).filter present).map fun z : Nat =>
          (sliceName q.Dim q.NX q.NY q.NZ (z + 1), Content.raw (codec.png (img z))) := by
        unfold doneSlices
        rw [← List.filterMap_eq_map, ← List.filterMap_eq_map, List.filterMap_filterMap, List.filterMap_filter]
        apply List.filterMap_congr
        intro z _
        cases hz : present z with
        | true =>
          rw [(himg z hz).2]
          dsimp only
          rw [Option.bind_some]
          unfold content sliceEntry
          simp only [d1, d2, d3, d4, Function.comp, if_true]
        | false =>
          cases ht : J.task z with
          | done p =>
            have : present z = (match J.task z with | .done _ => true | _ => false) := rfl
            rw [ht] at this
            rw [this] at hz
            cases hz
          | _ => rfl
      rw [this]
    · intro z _ hz
      exact (himg z hz).1
    · intro hw z hz
      rcases hall z hz with hd | ⟨png, hd⟩
      · exact absurd hd (none_dropped (fun s l h => (hw s l h.1).2) hs i J hj z)
      · show (match J.task z with | .done _ => true | _ => false) = true
        rw [hd]
  | @broken reqs s i J b hs hq hj hp =>
    have hn := reach_mono (Q := NoOverlap) (fun s l h => hP s l h.1) hs
    obtain ⟨_, es', he, _⟩ := job_reply_exact s hn i J hj _ hp
    injection he with he
    cases he

end

end Net
end StlDice
