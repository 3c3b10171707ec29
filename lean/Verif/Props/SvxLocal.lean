import Verif.Model.SvxLocal
import Verif.Props.SvxNetRuns
import Verif.Props.SvxCli

/-! # C92: stl2svx from its command line to its file -/

namespace StlDice
namespace Local
open Spec BinVOX Flag Cmd Net

/-- **C92.** The flags of stl2svx: `-dim` (8192), `-nx` (8), `-ny` (8), `-nz` (1), `-stl`, `-bucket`; other arguments are ignored. -/
theorem local_flags_iff {args : List Bytes} {fl : LocalFlags} : localFlags args = some fl ↔
    ∃ sets rest, CommandLine localKind (fun _ => false) sets rest args ∧
      IntFlag sets "dim" 8192 fl.dim ∧ IntFlag sets "nx" 8 fl.nx ∧ IntFlag sets "ny" 8 fl.ny ∧ IntFlag sets "nz" 1 fl.nz ∧
      StrFlag sets "stl" [] fl.stl ∧ StrFlag sets "bucket" [] fl.bucket := by
  unfold localFlags
  cases hp : parse localKind (fun _ => false) args with
  | exit b =>
    constructor
    · intro h; cases h
    · rintro ⟨sets, files, h, -⟩
      rw [parse_iff.mpr h] at hp
      cases hp
  | ok sets rest =>
    dsimp only
    have hc := parse_iff.mp hp
    constructor
    · intro h
      injection h with h
      subst h
      exact ⟨sets, rest, hc, (getInt_iff hc.1 (by decide)).mp rfl, (getInt_iff hc.1 (by decide)).mp rfl,
        (getInt_iff hc.1 (by decide)).mp rfl, (getInt_iff hc.1 (by decide)).mp rfl, getStr_iff.mp rfl, getStr_iff.mp rfl⟩
    · rintro ⟨sets', files, h, h1, h2, h3, h4, h5, h6⟩
      rw [parse_iff.mpr h] at hp
      injection hp with e1 e2
      subst e1
      have e5 : fl.stl = getStr sets' (ascii "stl") := getStr_iff.mpr h5
      have e6 : fl.bucket = getStr sets' (ascii "bucket") := getStr_iff.mpr h6
      rw [← (getInt_iff h.1 (by decide)).mpr h1, ← (getInt_iff h.1 (by decide)).mpr h2,
        ← (getInt_iff h.1 (by decide)).mpr h3, ← (getInt_iff h.1 (by decide)).mpr h4, ← e5, ← e6]

/-- **C92.** The name of the archive tells `-dim` and nothing else. -/
theorem zipName_injective {a b : Int} : zipName a = zipName b ↔ a = b := by
  constructor
  · intro h
    unfold zipName at h
    exact fmtInt_injective (List.append_cancel_left (List.append_cancel_right h))
  · rintro rfl
    rfl

section
variable {F : Type} [GoFloat F] {lib : Lib F} {codec : Codec F} {d d' : Disk} {args : List Bytes} {fl : LocalFlags} {e : Exit}

theorem localDone_touches {r : SvxReq F} {evs : List ZEv} {ok : Bool} (h : LocalDone lib codec d fl r evs ok d') {n : Bytes}
    (hn : n ≠ zipName fl.dim) : d' n = d n := by
  cases h with
  | ok hi he hs => exact put_other _ _ hn
  | failed hi he => exact put_other _ _ hn

/-- **C92.** However it ends, no file but `out<dim>.svx` is changed; with `-bucket` not even that. -/
theorem local_touches (hfl : localFlags args = some fl) (h : LocalProc lib codec d args d' e) {n : Bytes}
    (hn : n ≠ zipName fl.dim ∨ fl.bucket ≠ []) : d' n = d n := by
  cases h with
  | usage hp =>
    rfl
  | cloud h hb => rfl
  | noStl h hb hs => rfl
  | unreadable h hb hs hn hl => rfl
  | refused h hb hs hn hl hr => rfl
  | zero h hb hs hn hl hr => rfl
  | early h hb hs _ hl hr he hd =>
    rw [hfl] at h
    injection h with h
    subst h
    rcases hd with rfl | ⟨_, rfl⟩
    · rfl
    · rcases hn with hn | hn
      · exact put_other _ _ hn
      · exact absurd hb hn
  | fatal h hb hs _ hl hr hz hi hf =>
    rw [hfl] at h
    injection h with h
    subst h
    rcases hn with hn | hn
    · exact put_other _ _ hn
    · exact absurd hb hn
  | done h hb hs _ hl hr hd =>
    rw [hfl] at h
    injection h with h
    subst h
    rcases hn with hn | hn
    · exact localDone_touches hd hn
    · exact absurd hb hn

/-- **C92.** Without `-stl` the program panics. -/
theorem local_no_stl (hfl : localFlags args = some fl) (hb : fl.bucket = []) (hs : fl.stl = [])
    (h : LocalProc lib codec d args d' e) : d' = d ∧ e = .panic := by
  cases h with
  | usage hp => unfold localFlags at hfl; rw [hp] at hfl; cases hfl
  | noStl h hb hs => exact ⟨rfl, rfl⟩
  | cloud h hb' => rw [hfl] at h; injection h with h; subst h; exact absurd hb hb'
  | unreadable h _ hs' _ _ => rw [hfl] at h; injection h with h; subst h; exact absurd hs hs'
  | refused h _ hs' _ _ _ => rw [hfl] at h; injection h with h; subst h; exact absurd hs hs'
  | zero h _ hs' _ _ _ => rw [hfl] at h; injection h with h; subst h; exact absurd hs hs'
  | early h _ hs' _ _ _ _ _ => rw [hfl] at h; injection h with h; subst h; exact absurd hs hs'
  | fatal h _ hs' _ _ _ _ _ _ => rw [hfl] at h; injection h with h; subst h; exact absurd hs hs'
  | done h _ hs' _ _ _ _ => rw [hfl] at h; injection h with h; subst h; exact absurd hs hs'

/-- **C92.** If the first file of `-stl` cannot be read, or not be divided as asked, the program ends at once: nothing is
    changed, and it does not report success. -/
theorem local_refused (hfl : localFlags args = some fl) (hb : fl.bucket = [])
    (hno : ∀ names n c base, Pieces 44 fl.stl (n :: names) → d n = some c → lib.load c = some base →
      ¬ ∃ L, layout (lib.bbox base) (boxScale (lib.bbox base)) fl.dim fl.nx fl.ny fl.nz = .ok L)
    (h : LocalProc lib codec d args d' e) : d' = d ∧ e ≠ .done := by
  have key : ∀ {n ns base L}, split 44 fl.stl = n :: ns → (d n).bind lib.load = some base →
      layout (lib.bbox base) (boxScale (lib.bbox base)) fl.dim fl.nx fl.ny fl.nz = .ok L → False := by
    intro n ns base L h1 h2 h3
    cases hd : d n with
    | none => rw [hd] at h2; cases h2
    | some c =>
      rw [hd] at h2
      exact hno ns n c base (by rw [← h1]; exact split_pieces _ _) hd h2 ⟨L, h3⟩
  cases h with
  | usage hp => unfold localFlags at hfl; rw [hp] at hfl; cases hfl
  | noStl h hb hs => exact ⟨rfl, nofun⟩
  | cloud h hb' => rw [hfl] at h; injection h with h; subst h; exact absurd hb hb'
  | unreadable h _ hs' _ _ => exact ⟨rfl, nofun⟩
  | refused h _ hs' _ _ _ => exact ⟨rfl, nofun⟩
  | zero h _ hs' _ _ _ => exact ⟨rfl, nofun⟩
  | early h _ hs' h1 h2 h3 _ _ => rw [hfl] at h; injection h with h; subst h; exact (key h1 h2 h3).elim
  | fatal h _ hs' h1 h2 h3 _ _ _ => rw [hfl] at h; injection h with h; subst h; exact (key h1 h2 h3).elim
  | done h _ hs' h1 h2 h3 _ => rw [hfl] at h; injection h with h; subst h; exact (key h1 h2 h3).elim

/-- Files other than the archive are read as they were. -/
theorem readsAll_iff {out : Bytes} {names : List Bytes} (hout : out ∉ names) {r : Option (List (List (Tri (Vec F))))} :
    ReadsAll lib d out names r ↔ r = loadSTL lib d names := by
  have one : ∀ {n : Bytes} {r : Option (List (Tri (Vec F)))}, n ≠ out → (Reads lib d out n r ↔ r = (d n).bind lib.load) := by
    intro n r hn
    exact ⟨fun h => h.elim id fun e => absurd e hn, Or.inl⟩
  induction names generalizing r with
  | nil =>
    constructor
    · intro h
      cases h
      rfl
    · rintro rfl
      exact .nil
  | cons n ns ih =>
    have hn : n ≠ out := fun e => hout (e ▸ List.mem_cons_self)
    have ih := fun {r} => ih (r := r) fun h => hout (List.mem_cons_of_mem _ h)
    constructor
    · intro h
      cases h with
      | fatal h =>
        have h := (one hn).mp h
        unfold loadSTL
        rw [← h]
      | @cons _ _ ts r' h hr =>
        have h := (one hn).mp h
        have hr := ih.mp hr
        unfold loadSTL
        rw [← h, ← hr]
        dsimp only
        cases r' <;> rfl
    · rintro rfl
      unfold loadSTL
      cases hl : (d n).bind lib.load with
      | none => exact .fatal ((one hn).mpr hl.symm)
      | some ts =>
        dsimp only
        have := ReadsAll.cons ((one hn).mpr hl.symm) (ih.mpr rfl)
        cases hr : loadSTL lib d ns with
        | none => rw [hr] at this; exact this
        | some rest => rw [hr] at this; exact this

/-- **C92.** If the program gets to its end and has slices to make, all files of `-stl` could be read and the first be divided, and every
    slice was made from exactly these files. -/
theorem local_done (hfl : localFlags args = some fl) (hb : fl.bucket = []) (hout : ∀ names, Pieces 44 fl.stl names → zipName fl.dim ∉ names)
    (h : LocalProc lib codec d args d' .done) :
    ∃ n names c base L evs ok, Pieces 44 fl.stl (n :: names) ∧ d n = some c ∧ lib.load c = some base ∧
      layout (lib.bbox base) (boxScale (lib.bbox base)) fl.dim fl.nx fl.ny fl.nz = .ok L ∧
      LocalDone lib codec d fl ⟨fl.dim, fl.nx, fl.ny, fl.nz, ascii "out", L, lib.bbox base⟩ evs ok d' ∧
      (0 < L.dimZ → ∃ cuts, FilesHold lib.load d (n :: names) (base :: cuts)) := by
  generalize he : Exit.done = e at h
  cases h with
  | usage hp => unfold localFlags at hfl; rw [hp] at hfl; cases hfl
  | noStl h hb hs => cases he
  | cloud h hb' => rw [hfl] at h; injection h with h; subst h; exact absurd hb hb'
  | unreadable h _ hs' _ _ => cases he
  | refused h _ hs' _ _ _ => cases he
  | zero h _ hs' _ _ _ => cases he
  | early h _ hs' h1 h2 h3 _ _ => cases he
  | fatal h _ hs' h1 h2 h3 _ _ _ => cases he
  | @done fl' n ns base L evs ok d' h _ hs' h1 h2 h3 h4 =>
    rw [hfl] at h
    injection h with h
    subst h
    have hp : Pieces 44 fl.stl (n :: ns) := by rw [← h1]; exact split_pieces _ _
    cases hd : d n with
    | none => rw [hd] at h2; cases h2
    | some c =>
      have h2' := h2
      rw [hd] at h2
      refine ⟨n, ns, c, base, L, evs, ok, hp, hd, h2, h3, h4, ?_⟩
      intro hpos
      have hsl : ∃ img, LocalSlice lib d fl 0 (some img) := by
        cases h4 with
        | ok hi _ _ => exact ⟨_, hi 0 (show 0 < L.dimZ.toNat by omega)⟩
        | failed hi _ => exact ⟨_, hi 0 (show 0 < L.dimZ.toNat by omega)⟩
      obtain ⟨img, files, hr, hm⟩ := hsl
      rw [h1, readsAll_iff (hout _ hp)] at hr
      cases hl : loadSTL lib d (n :: ns) with
      | none => rw [hr, hl] at hm; cases hm
      | some fs =>
        have hl' := hl
        unfold loadSTL at hl'
        rw [h2'] at hl'
        dsimp only at hl'
        cases hrest : loadSTL lib d ns with
        | none => rw [hrest] at hl'; cases hl'
        | some rest =>
          rw [hrest] at hl'
          injection hl' with hl'
          exact ⟨rest, loadSTL_iff.mp (by rw [hl, ← hl'])⟩

/-- **C92.** A file of `-stl` that cannot be read: the program does not report success (if it has slices to make at all). -/
theorem local_bad_cut (hfl : localFlags args = some fl) (hb : fl.bucket = []) (hout : ∀ names, Pieces 44 fl.stl names → zipName fl.dim ∉ names)
    {names : List Bytes} {n : Bytes} (hp : Pieces 44 fl.stl names) (hn : n ∈ names) (hbad : ∀ c, d n = some c → lib.load c = none)
    (hpos : ∀ c base L, lib.load c = some base → layout (lib.bbox base) (boxScale (lib.bbox base)) fl.dim fl.nx fl.ny fl.nz = .ok L → 0 < L.dimZ)
    (h : LocalProc lib codec d args d' e) : e ≠ .done := by
  rintro rfl
  obtain ⟨m, ns, c, base, L, evs, ok, h1, h2, h3, h4, h5, h6⟩ := local_done hfl hb hout h
  obtain ⟨cuts, hf⟩ := h6 (hpos c base L h3 h4)
  have e := pieces_unique 44 hp h1
  subst e
  obtain ⟨i, hi, e⟩ := List.mem_iff_getElem.mp hn
  have hlen := List.Forall₂.length_eq hf
  obtain ⟨c', hc, hl⟩ := (List.forall₂_iff_get.mp hf).2 i hi (by omega)
  rw [List.get_eq_getElem, e] at hc
  rw [hbad c' hc] at hl
  cases hl

/-! ## The archive -/

theorem localImages_unique {r : SvxReq F} {img : Nat → Image} {a b : Bytes × Content F} (ha : a ∈ localImages codec r img)
    (hb : b ∈ localImages codec r img) (h : a.1 = b.1) : a = b := by
  have form : ∀ x ∈ localImages codec r img, (∃ z : Nat, z < r.L.dimZ.toNat ∧
      x = (sliceName r.Dim r.NX r.NY r.NZ (z + 1), .raw (codec.png (img z)))) ∨
      ((x.1 = sliceName r.Dim r.NX r.NY r.NZ 0 ∨ x.1 = sliceName r.Dim r.NX r.NY r.NZ (r.L.dimZ + 1)) ∧
        x.2 = .blank (r.Dim + 2)) := by
    intro x hx
    unfold localImages at hx
    rcases List.mem_append.mp hx with hx | hx
    · rcases List.mem_cons.mp hx with rfl | hx
      · exact .inr ⟨.inl rfl, rfl⟩
      · obtain ⟨z, hz, rfl⟩ := List.mem_map.mp hx
        exact .inl ⟨z, List.mem_range.mp hz, rfl⟩
    · rw [List.mem_singleton.mp hx]
      exact .inr ⟨.inr rfl, rfl⟩
  rcases form a ha with ⟨z, hz, rfl⟩ | ⟨h1, h2⟩
  · rcases form b hb with ⟨z', hz', rfl⟩ | ⟨h3, h4⟩
    · have := sliceName_injective _ _ _ _ _ _ (by omega) (by omega) h
      have : z = z' := by omega
      rw [this]
    · exfalso
      dsimp only at h
      rcases h3 with h3 | h3
      · rw [h3] at h
        have := sliceName_injective _ _ _ _ _ _ (by omega) (by omega) h
        omega
      · rw [h3] at h
        have := sliceName_injective _ _ _ _ _ _ (by omega) (by omega) h
        omega
  · rcases form b hb with ⟨z', hz', rfl⟩ | ⟨h3, h4⟩
    · exfalso
      dsimp only at h
      rcases h1 with h1 | h1
      · rw [h1] at h
        have := sliceName_injective _ _ _ _ _ _ (by omega) (by omega) h
        omega
      · rw [h1] at h
        have := sliceName_injective _ _ _ _ _ _ (by omega) (by omega) h
        omega
    · exact Prod.ext h (h2.trans h4.symm)

theorem localImages_names {r : SvxReq F} {img : Nat → Image} : ∀ m ∈ (localImages codec r img).map Prod.fst, m ≠ ascii "manifest.xml" := by
  intro m hm
  obtain ⟨x, hx, rfl⟩ := List.mem_map.mp hm
  unfold localImages at hx
  rcases List.mem_append.mp hx with hx | hx
  · rcases List.mem_cons.mp hx with rfl | hx
    · exact sliceName_ne_manifest _ _ _ _ _
    · obtain ⟨z, hz, rfl⟩ := List.mem_map.mp hx
      exact sliceName_ne_manifest _ _ _ _ _
  · rw [List.mem_singleton.mp hx]
    exact sliceName_ne_manifest _ _ _ _ _

theorem localEntry_image {r : SvxReq F} {img : Nat → Image} {a : Bytes × Content F} (ha : a ∈ localImages codec r img) :
    localEntry r (localImages codec r img) (a.1, true) = a := by
  unfold localEntry
  dsimp only
  rw [if_pos rfl, if_neg (localImages_names _ (List.mem_map_of_mem ha))]
  have : ∃ b, (localImages codec r img).find? (fun i => decide (i.1 = a.1)) = some b := by
    rw [← Option.isSome_iff_exists, List.find?_isSome]
    exact ⟨a, ha, decide_eq_true rfl⟩
  obtain ⟨b, hb⟩ := this
  rw [hb]
  have h1 := List.mem_of_find?_eq_some hb
  have h2 : b.1 = a.1 := by simpa using List.find?_some hb
  rw [localImages_unique h1 ha h2]
  rfl

/-- The names of the images of a job, in order. -/
def localNames (r : SvxReq F) : List Bytes :=
  sliceName r.Dim r.NX r.NY r.NZ 0 :: ((List.range r.L.dimZ.toNat).map fun z : Nat => sliceName r.Dim r.NX r.NY r.NZ (z + 1)) ++
    [sliceName r.Dim r.NX r.NY r.NZ (r.L.dimZ + 1)]

omit [GoFloat F] in
theorem localImages_fst (r : SvxReq F) (img : Nat → Image) : (localImages codec r img).map Prod.fst = localNames r := by
  unfold localImages localNames
  rw [List.map_append, List.map_cons, List.map_map]
  rfl

/-- The goroutine that writes the manifest is done before the first image is begun. -/
def ManifestFirst (r : SvxReq F) (evs : List ZEv) : Prop := evs = manifestEvents true ++ mainEvents (localNames r)

/-- **C92.** If the manifest was written before the first image was begun and nothing went wrong with the file, it holds the
    manifest, a black image number 0, the images of all slices in order, and a black image. -/
theorem local_archive {r : SvxReq F} {evs : List ZEv} (h : LocalDone lib codec d fl r evs true d')
    (hord : ManifestFirst r evs) :
    ∃ img : Nat → Image, (∀ z < r.L.dimZ.toNat, LocalSlice lib d fl z (some (img z))) ∧
      d' = put d (zipName fl.dim) (codec.zip ((ascii "manifest.xml", .manifest r) ::
        (sliceName r.Dim r.NX r.NY r.NZ 0, .blank (r.Dim + 2)) ::
        ((List.range r.L.dimZ.toNat).map fun z : Nat => (sliceName r.Dim r.NX r.NY r.NZ (z + 1), Content.raw (codec.png (img z)))) ++
        [(sliceName r.Dim r.NX r.NY r.NZ (r.L.dimZ + 1), .blank (r.Dim + 2))])) := by
  generalize hk : true = ok at h
  cases h with
  | failed _ _ => cases hk
  | @ok img s es hi he hs =>
    refine ⟨img, hi, ?_⟩
    have hne : ∃ n ns, (localImages codec r img).map Prod.fst = n :: ns := ⟨_, _, rfl⟩
    obtain ⟨n, ns, en⟩ := hne
    have hnames := localImages_names (codec := codec) (r := r) (img := img)
    have ho := hord
    unfold ManifestFirst at ho
    rw [← localImages_fst (codec := codec) r img] at ho
    rw [en] at he hnames ho
    obtain ⟨s', hs', hf⟩ := (cli_archive_iff n ns hnames evs (some s) he).mpr ho
    injection hs' with hs'
    subst hs'
    rw [hs] at hf
    injection hf with hf
    rw [← en] at hf
    rw [hf]
    unfold GoodArchive
    rw [List.map_cons, List.map_map, List.map_map]
    have e1 : localEntry r (localImages codec r img) (ascii "manifest.xml", true) = (ascii "manifest.xml", Content.manifest r) := by
      unfold localEntry
      dsimp only
      rw [if_pos rfl, if_pos rfl]
    have e2 : (localImages codec r img).map ((localEntry r (localImages codec r img) ∘ fun n => (n, true)) ∘ Prod.fst) =
        localImages codec r img := by
      conv_rhs => rw [← List.map_id (localImages codec r img)]
      apply List.map_congr_left
      intro a ha
      exact localEntry_image ha
    rw [e1, e2]
    rfl

end
end Local
end StlDice
