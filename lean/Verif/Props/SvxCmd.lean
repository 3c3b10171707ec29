import Verif.Model.SvxCmd
import Verif.Spec.SvxCmd
import Verif.Props.Commands
import Verif.Props.Marching
import Verif.Props.SvxBack
import Verif.Props.FlagLine
import Verif.Props.VoxcutOut

/-! # C81: svx2stl from its command line to its files -/

namespace StlDice
namespace Cmd
open Spec BinVOX GoFloat

theorem svxOut_iff (a o : Bytes) : svxOut a = o ↔ SvxOutName a o := by
  unfold SvxOutName
  by_cases h : ∃ stem, a = stem ++ ascii ".svx"
  · obtain ⟨stem, rfl⟩ := h
    have e : svxOut (stem ++ ascii ".svx") = stem ++ ascii ".stl" := by
      unfold svxOut
      rw [List.reverse_append, stripPrefix_append]
      dsimp only
      rw [List.reverse_reverse]
    rw [e]
    constructor
    · rintro rfl
      exact Or.inl ⟨stem, rfl, rfl⟩
    · rintro (⟨s, h1, h2⟩ | ⟨h1, _⟩)
      · rw [h2, List.append_cancel_right h1]
      · exact absurd ⟨stem, rfl⟩ h1
  · have e : svxOut a = a ++ ascii ".stl" := by
      unfold svxOut
      cases hp : stripPrefix (ascii ".svx").reverse a.reverse with
      | none => rfl
      | some r =>
        have := stripPrefix_some hp
        exfalso
        apply h
        refine ⟨r.reverse, ?_⟩
        rw [← List.reverse_reverse a, this, List.reverse_append, List.reverse_reverse]
    rw [e]
    constructor
    · rintro rfl
      exact Or.inr ⟨h, rfl⟩
    · rintro (⟨s, h1, _⟩ | ⟨_, h2⟩)
      · exact absurd ⟨s, h1⟩ h
      · exact h2.symm

/-- **C81.** Two arguments have the same output iff one is the other followed by `.svx` (and the shorter one does not
    itself end in `.svx`). -/
theorem svx_out_collide {a b : Bytes} (hab : a ≠ b) : (∃ o, SvxOutName a o ∧ SvxOutName b o) ↔
    (b = a ++ ascii ".svx" ∧ ¬ ∃ s, a = s ++ ascii ".svx") ∨ (a = b ++ ascii ".svx" ∧ ¬ ∃ s, b = s ++ ascii ".svx") := by
  constructor
  · rintro ⟨o, ⟨s, h1, h2⟩ | ⟨h1, h2⟩, ⟨t, h3, h4⟩ | ⟨h3, h4⟩⟩
    · have := List.append_cancel_right (h2.symm.trans h4)
      exact absurd (by rw [h1, h3, this]) hab
    · have := List.append_cancel_right (h2.symm.trans h4)
      exact Or.inr ⟨by rw [h1, this], h3⟩
    · have := List.append_cancel_right (h2.symm.trans h4)
      exact Or.inl ⟨by rw [h3, this], h1⟩
    · exact absurd (List.append_cancel_right (h2.symm.trans h4)) hab
  · rintro (⟨rfl, h⟩ | ⟨rfl, h⟩)
    · exact ⟨_, Or.inr ⟨h, rfl⟩, Or.inl ⟨a, rfl, rfl⟩⟩
    · exact ⟨_, Or.inl ⟨b, rfl, rfl⟩, Or.inr ⟨h, rfl⟩⟩

section
variable {F : Type} [GoFloat F] {unzip : Bytes → Option (List (ZFile F))} {lib : GL F}

theorem svxOpen_congr {d d' : Disk} {a : Bytes} (h : d' a = d a) : svxOpen unzip d' a = svxOpen unzip d a := by
  unfold svxOpen
  rw [h]

/-- File `out` of the disk holds a marching-cubes mesh of model `b`. -/
def HoldsMesh (lib : GL F) (d : Disk) (out : Bytes) (b : BinVOX F) : Prop :=
  ∃ tris, Marching.MarchingRun b tris ∧ d out = some (lib.stl tris)

/-- **C81.** The command line of svx2stl: files only; `--` may stand before them, and must if the first one begins
    with a dash. -/
theorem svx_line {args files : List Bytes} {sets : List (Bytes × Bytes)} :
    Flag.parse (fun _ => none) (fun _ => false) args = .ok sets files ↔
      sets = [] ∧ (args = files ∧ (∀ f, files.head? = some f → FirstFile f) ∨ args = ascii "--" :: files) := by
  rw [Flag.parse_iff]
  constructor
  · rintro ⟨h1, pieces, h2, h3⟩
    have hs : sets = [] := by
      cases sets with
      | nil => rfl
      | cons s ss =>
        obtain ⟨_, k, hk, _⟩ := h1 s (by simp)
        cases hk
    subst hs
    cases h2
    exact ⟨rfl, h3⟩
  · rintro ⟨rfl, h⟩
    exact ⟨fun s hs => (List.not_mem_nil hs).elim, [], .nil, h⟩

theorem svx_loop_other {d d' : Disk} {args : List Bytes} {e : Exit} (h : Svx2StlLoop unzip lib d args d' e) {n : Bytes}
    (hn : ∀ a ∈ args, n ≠ svxOut a) : d' n = d n := by
  induction h with
  | nil => rfl
  | unreadable _ => rfl
  | panics _ => rfl
  | unsaved _ _ hs => exact save_other hs (hn _ (by simp))
  | next _ _ hs _ ih =>
    rw [ih (fun a ha => hn a (by simp [ha]))]
    exact save_other hs (hn _ (by simp))

/-- **C81.** svx2stl changes no file but `x.stl` for its arguments `x.svx` (and `y.stl` for an argument `y` that does
    not end in `.svx`), however it ends. -/
theorem svx2stl_touches {d d' : Disk} {args : List Bytes} {e : Exit} (h : Svx2StlProc unzip lib d args d' e) {n : Bytes}
    (hn : ∀ a ∈ args, ¬ SvxOutName a n) : d' n = d n := by
  cases h with
  | usage _ => rfl
  | @run sets files _ _ hp hr =>
    apply svx_loop_other hr
    intro a ha e
    refine hn a ?_ ((svxOut_iff _ _).mp e.symm)
    rcases (svx_line.mp hp).2 with ⟨rfl, _⟩ | rfl
    · exact ha
    · simp [ha]

/-- No argument is the output of an argument. -/
def Apart (files : List Bytes) : Prop := ∀ a ∈ files, ∀ b ∈ files, ¬ SvxOutName a b

theorem apart_save {d d1 : Disk} {a : Bytes} {args : List Bytes} {c : Bytes} {ok : Bool} (hap : Apart (a :: args))
    (hs : Save d (svxOut a) c d1 ok) {x : Bytes} (hx : x ∈ a :: args) : svxOpen unzip d1 x = svxOpen unzip d x :=
  svxOpen_congr (save_other hs (fun e => hap a (by simp) x hx ((svxOut_iff _ _).mp e.symm)))

theorem apart_tail {a : Bytes} {args : List Bytes} (hap : Apart (a :: args)) : Apart args :=
  fun x hx y hy => hap x (by simp [hx]) y (by simp [hy])

/-- **C81.** A successful run: every argument could be read, and the output of every argument whose output no later
    argument has too holds a marching-cubes mesh of the model in it. -/
theorem svx_done {files : List Bytes} : ∀ {d d' : Disk}, Svx2StlLoop unzip lib d files d' .done → Apart files →
    (∀ a ∈ files, ∃ b, svxOpen unzip d a = .ok b) ∧
    ∀ before a after o, files = before ++ a :: after → SvxOutName a o → (∀ c ∈ after, ¬ SvxOutName c o) →
      ∃ b, svxOpen unzip d a = .ok b ∧ HoldsMesh lib d' o b := by
  induction files with
  | nil =>
    intro d d' _ _
    refine ⟨fun a ha => (List.not_mem_nil ha).elim, ?_⟩
    intro before a after o e
    cases before <;> cases e
  | cons a args ih =>
    intro d d' h hap
    cases h with
    | @next _ _ _ b tris d1 _ _ hb ht hs hr =>
      obtain ⟨i1, i2⟩ := ih hr (apart_tail hap)
      have hsame : ∀ x ∈ args, svxOpen unzip d1 x = svxOpen unzip d x :=
        fun x hx => apart_save hap hs (by simp [hx])
      refine ⟨?_, ?_⟩
      · intro x hx
        rcases List.mem_cons.mp hx with rfl | hx
        · exact ⟨b, hb⟩
        · rw [← hsame x hx]
          exact i1 x hx
      · intro before x after o e ho hlast
        cases before with
        | nil =>
          injection e with e1 e2
          subst e1 e2
          refine ⟨b, hb, tris, ht, ?_⟩
          have hoa := (svxOut_iff _ _).mpr ho
          rw [svx_loop_other hr (fun c hc e => hlast c hc ((svxOut_iff _ _).mp e.symm)), save_ok hs, hoa, put_self]
        | cons y before =>
          injection e with _ e2
          have hx : x ∈ args := by rw [e2]; simp
          rw [← hsame x hx]
          exact i2 before x after o e2 ho hlast

/-- What made svx2stl stop at argument `a`: the exit and how the disk changed from `d1` to `d'`. -/
inductive StopsAt (unzip : Bytes → Option (List (ZFile F))) (lib : GL F) (a : Bytes) (d1 d' : Disk) : Exit → Prop
  | unreadable (h : svxOpen unzip d1 a = .err) (hd : d' = d1) : StopsAt unzip lib a d1 d' .fatal
  | panics (h : svxOpen unzip d1 a = .panic) (hd : d' = d1) : StopsAt unzip lib a d1 d' .panic
  | unsaved {o : Bytes} {b tris} (h : svxOpen unzip d1 a = .ok b) (ho : SvxOutName a o) (ht : Marching.MarchingRun b tris)
      (hd : d' = d1 ∨ ∃ c, c <+: lib.stl tris ∧ d' = put d1 o c) : StopsAt unzip lib a d1 d' .fatal

/-- **C81.** A run that does not succeed stops at one argument: all before it are converted as in a successful run,
    none after it is looked at. -/
theorem svx_stops {d d' : Disk} {files : List Bytes} {e : Exit} (h : Svx2StlLoop unzip lib d files d' e) (he : e ≠ .done) :
    ∃ before a after d1, files = before ++ a :: after ∧ Svx2StlLoop unzip lib d before d1 .done ∧
      StopsAt unzip lib a d1 d' e := by
  induction h with
  | nil => exact absurd rfl he
  | @unreadable d a args h => exact ⟨[], a, args, d, rfl, .nil, .unreadable h rfl⟩
  | @panics d a args h => exact ⟨[], a, args, d, rfl, .nil, .panics h rfl⟩
  | @unsaved d a args b tris d1 h ht hs =>
    refine ⟨[], a, args, d, rfl, .nil, ?_⟩
    generalize hok : false = ok at hs
    cases hs with
    | ok => cases hok
    | notCreated => exact .unsaved h ((svxOut_iff _ _).mp rfl) ht (Or.inl rfl)
    | @part p hp => exact .unsaved h ((svxOut_iff _ _).mp rfl) ht (Or.inr ⟨p, hp, rfl⟩)
  | @next d a args b tris d1 d' e h ht hs _ ih =>
    obtain ⟨before, x, after, d2, e1, e2, e3⟩ := ih he
    exact ⟨a :: before, x, after, d2, by rw [e1]; rfl, .next h ht hs e2, e3⟩

/-- **C81.** svx2stl can succeed iff every argument can be read. -/
theorem svx_succeeds_iff {files : List Bytes} (hap : Apart files) (d : Disk) :
    (∃ d', Svx2StlLoop unzip lib d files d' .done) ↔ ∀ a ∈ files, ∃ b, svxOpen unzip d a = .ok b := by
  constructor
  · rintro ⟨d', h⟩
    exact (svx_done h hap).1
  · intro h
    induction files generalizing d with
    | nil => exact ⟨d, .nil⟩
    | cons a args ih =>
      obtain ⟨b, hb⟩ := h a (by simp)
      obtain ⟨tris, ht⟩ := Marching.marching_run_exists b
      have hs : Save d (svxOut a) (lib.stl tris) (put d (svxOut a) (lib.stl tris)) true := .ok
      obtain ⟨d', hd'⟩ := ih (apart_tail hap) (put d (svxOut a) (lib.stl tris)) (by
        intro x hx
        rw [apart_save hap hs (by simp [hx])]
        exact h x (by simp [hx]))
      exact ⟨d', .next hb ht hs hd'⟩

end

section
variable {unzip : Bytes → Option (List (ZFile ℚ))} {lib : GL ℚ} {f32 : Nat → ℚ} {parseF : Bytes → ℚ}

/-- **C81.** The whole way in exact arithmetic: after a successful run `svx2stl a₁ a₂ …` the output of each argument
    (that no later argument overwrites) reads as a closed, consistently oriented surface whose corners are exactly the
    rounded points halfway between voxels of the archive and adjacent places without one. -/
theorem svx2stl_files {d d' : Disk} {files : List Bytes} (h : Svx2StlProc unzip lib d files d' .done)
    (hf : ∀ f, files.head? = some f → FirstFile f) (hap : Apart files)
    {before after : List Bytes} {a o : Bytes} (hsplit : files = before ++ a :: after) (ho : SvxOutName a o)
    (hlast : ∀ c ∈ after, ¬ SvxOutName c o) :
    ∃ b file, svxOpen unzip d a = .ok b ∧ d' o = some file ∧
      (file.length < 84 + 50 * 4294967296 → ∃ ts, StlText.stlToMesh f32 parseF file = .ok ts ∧ Closed ts ∧
        (∀ p, (∃ t ∈ ts, p = t.V1 ∨ p = t.V2 ∨ p = t.V3) ↔
          ∃ k k' : Key, Adjacent k k' ∧ Present b k ∧ ¬ Present b k' ∧
            p = asFloat32 lib.bits f32 (midpoint (centre b k) (centre b k'))) ∧
        (ts = [] ↔ ∀ k, ¬ Present b k)) := by
  have hparse : Flag.parse (fun _ => none) (fun _ => false) files = .ok [] files :=
    svx_line.mpr ⟨rfl, Or.inl ⟨rfl, hf⟩⟩
  generalize he : Exit.done = e at h
  cases h with
  | usage hp => rw [hparse] at hp; cases hp
  | run hp hr =>
    subst he
    rw [hparse] at hp
    injection hp with _ hp
    subst hp
    obtain ⟨b, hb, tris, ht, hfile⟩ := (svx_done hr hap).2 before a after o hsplit ho hlast
    exact ⟨b, _, hb, hfile, fun hl => marching_stl ht hl⟩

/-- **C81.** An archive as stl2svx writes it, with up to 9998 slices of which slice `z` shows the cells `solid z`: the
    mesh svx2stl makes of it separates exactly the voxels `(x + 1, dim - y, z + 1)` of solid cells from the others: the
    model comes back mirrored along y and shifted by one voxel. -/
theorem svx2stl_of_stl2svx {d : Disk} {a c : Bytes} (hc : d a = some c) (man : ZFile ℚ) (es : List (ZFile ℚ)) (b0 : BinVOX ℚ)
    (hz : unzip c = some (man :: es))
    (dim nx ny nz : Int) (n : Nat) (img : Nat → Image) (solid : Nat → Int → Int → Prop)
    (ho : man.opens = true) (hm : man.name = ascii "manifest.xml")
    (hp : parseManifest man.xml = some (b0, svxFmt dim nx ny nz))
    (hes : es.Perm ((List.range (n + 2)).map fun k =>
      imageEntry dim nx ny nz (k : Nat) (Spec.svxImages dim n img k)))
    (hshow : ∀ z < n, Spec.Shows (img z) (dim + 2) (dim + 2) (solid z) (fun i j => (i - 1, dim - j)))
    (hin : ∀ z x y, solid z x y → 0 ≤ x ∧ x ≤ dim ∧ 0 ≤ y ∧ y ≤ dim) (hle : n ≤ 9998) :
    ∃ b, svxOpen unzip d a = .ok b ∧ (∀ k, centre b k = centre b0 k) ∧
      ∀ k : Key, Present b k ↔ ∃ z x y, z < n ∧ solid z x y ∧ k = ⟨x + 1, dim - y, z + 1⟩ := by
  obtain ⟨m', h1, h2, h3⟩ := svx_readback_mirrored man es b0 dim nx ny nz n img solid ho hm hp hes hshow hin hle
  refine ⟨{ b0 with WhiteVoxels := some m' }, ?_, fun k => rfl, ?_⟩
  · unfold svxOpen
    rw [hc, Option.bind_some, hz]
    exact h1
  · intro k
    rw [← h3 k]
    have hcol : b0.ColorVoxels = none := by
      unfold parseManifest at hp
      generalize man.xml = x at hp
      cases x with
      | none => cases hp
      | some v =>
        dsimp only at hp
        split at hp
        · cases hp
        · split at hp
          · cases hp
          · injection hp with hp
            injection hp with hp _
            rw [← hp]
    rw [present_vox (b := { b0 with WhiteVoxels := some m' }) (by unfold WhiteOnly BinVOX.color; dsimp only; rw [hcol]; rfl)]
    exact Iff.rfl

/-- A disk with one archive (its bytes do not matter, the decoder is a parameter) that decodes to one solid cell. -/
def oneDisk : Disk := put (fun _ => none) (ascii "a.svx") [80]

def oneZip : Bytes → Option (List (ZFile ℚ)) := fun c => if c = [80] then
  some (oneManifest :: ((List.range 3).map fun k =>
      imageEntry 2 1 1 1 (k : Nat) (Spec.svxImages 2 1 (fun _ => oneCell) k))) else none

theorem oneDisk_ready : Apart [ascii "a.svx"] ∧ (∀ a ∈ [ascii "a.svx"], ∃ b, svxOpen oneZip oneDisk a = .ok b) ∧
    SvxOutName (ascii "a.svx") (ascii "a.stl") := by
  refine ⟨?_, ?_, (svxOut_iff _ _).mp (by decide +kernel)⟩
  · intro a ha b hb h
    rw [List.mem_singleton] at ha hb
    subst ha hb
    have := (svxOut_iff _ _).mpr h
    revert this
    decide +kernel
  · intro a ha
    rw [List.mem_singleton] at ha
    subst ha
    obtain ⟨m', h1, _⟩ := (svx_readback oneManifest _ _ 2 1 1 1 1 (fun _ => oneCell) rfl rfl rfl
      (List.Perm.refl _)).1 (by omega)
    have e : svxOpen oneZip oneDisk (ascii "a.svx") = svxLoad (oneManifest :: ((List.range 3).map fun k =>
        imageEntry 2 1 1 1 (k : Nat) (Spec.svxImages 2 1 (fun _ => oneCell) k))) := by
      unfold svxOpen
      rw [show oneDisk (ascii "a.svx") = some [80] from put_self _ _ _, Option.bind_some,
        show oneZip [80] = _ from if_pos rfl]
    exact ⟨_, e.trans h1⟩

end

/-! ### Runs on that disk -/

example : (∃ o, SvxOutName (ascii "a") o ∧ SvxOutName (ascii "a.svx") o) :=
  (svx_out_collide (by decide)).mpr (Or.inl ⟨rfl, by
    rintro ⟨s, h⟩
    have := congrArg List.length h
    rw [List.length_append, show (ascii "a").length = 1 by decide, show (ascii ".svx").length = 4 by decide] at this
    omega⟩)

theorem oneRun (lib : GL ℚ) : ∃ d', Svx2StlLoop oneZip lib oneDisk [ascii "a.svx"] d' .done :=
  (svx_succeeds_iff oneDisk_ready.1 oneDisk).mpr oneDisk_ready.2.1

theorem oneProc (lib : GL ℚ) : ∃ d', Svx2StlProc oneZip lib oneDisk [ascii "a.svx"] d' .done := by
  obtain ⟨d', h⟩ := oneRun lib
  exact ⟨d', .run (sets := []) (by rfl) h⟩

example (lib : GL ℚ) : ∃ d', Svx2StlProc oneZip lib oneDisk [ascii "a.svx"] d' .done ∧ (∀ n, n ≠ ascii "a.stl" → d' n = oneDisk n) := by
  obtain ⟨d', h⟩ := oneProc lib
  refine ⟨d', h, fun n hn => svx2stl_touches h fun a ha ho => hn ?_⟩
  rw [List.mem_singleton] at ha
  subst ha
  rw [← (svxOut_iff _ _).mpr ho]
  decide +kernel

example (lib : GL ℚ) : ∃ d' b, svxOpen oneZip oneDisk (ascii "a.svx") = .ok b ∧ HoldsMesh lib d' (ascii "a.stl") b := by
  obtain ⟨d', h⟩ := oneRun lib
  obtain ⟨b, h1, h2⟩ := (svx_done h oneDisk_ready.1).2 [] (ascii "a.svx") [] (ascii "a.stl") rfl oneDisk_ready.2.2 (by simp)
  exact ⟨d', b, h1, h2⟩

/-- The second file is missing: the first is converted, then the program stops. -/
example (lib : GL ℚ) : ∃ d' before a after d1, Svx2StlLoop oneZip lib oneDisk [ascii "a.svx", ascii "b.svx"] d' .fatal ∧
    [ascii "a.svx", ascii "b.svx"] = before ++ a :: after ∧ Svx2StlLoop oneZip lib oneDisk before d1 .done ∧ StopsAt oneZip lib a d1 d' .fatal := by
  obtain ⟨d', h⟩ := oneRun lib
  cases h with
  | next ho ht hs hr =>
    cases hr with
    | nil =>
      have hb : svxOpen oneZip d' (ascii "b.svx") = .err := by
        unfold svxOpen
        rw [save_other hs (by decide +kernel), show oneDisk (ascii "b.svx") = none from put_other _ _ (by decide)]
        rfl
      have hl : Svx2StlLoop oneZip lib oneDisk [ascii "a.svx", ascii "b.svx"] d' .fatal := .next ho ht hs (.unreadable hb)
      obtain ⟨before, a, after, d1, h1, h2, h3⟩ := svx_stops hl (by decide)
      exact ⟨d', before, a, after, d1, hl, h1, h2, h3⟩

example (lib : GL ℚ) (f32 : Nat → ℚ) (parseF : Bytes → ℚ) := (oneProc lib).imp fun _ h =>
  svx2stl_files (f32 := f32) (parseF := parseF) h (by
    rintro f ⟨⟩
    unfold FirstFile
    decide) oneDisk_ready.1 (before := []) (after := []) rfl oneDisk_ready.2.2 (by simp)

/-- One cell is solid, and one voxel is read. -/
example : ∃ b, svxOpen oneZip oneDisk (ascii "a.svx") = .ok b ∧ (∀ k, centre b k = centre ⟨4, 3, 4, 0, 0, 0, 1 / 1000 * 1000, some [], none⟩ k) ∧
    ∀ k : Key, Present b k ↔ ∃ (z : Nat) (x y : Int), z < 1 ∧ (x = 1 ∧ y = 0) ∧ k = ⟨x + 1, 2 - y, z + 1⟩ :=
  svx2stl_of_stl2svx (put_self _ _ _) oneManifest ((List.range 3).map fun k =>
      imageEntry 2 1 1 1 (k : Nat) (Spec.svxImages 2 1 (fun _ => oneCell) k)) _ (if_pos rfl) 2 1 1 1 1 (fun _ => oneCell)
    (fun _ x y => x = 1 ∧ y = 0) rfl rfl rfl (List.Perm.refl _) (by
      intro z _
      refine ⟨rfl, rfl, fun i j => ?_⟩
      simp only [oneCell, Bool.and_eq_true, beq_iff_eq]
      omega) (by omega) (by omega)

end Cmd
end StlDice
