import Verif.Props.SvxLocal

/-! # C92: what svx2stl makes of the file of stl2svx; the same job on the network -/

namespace StlDice
namespace Local
open Spec BinVOX Flag Cmd Net

/-! ## When the manifest is late -/

/-- In every other order: a panic, or the archive begins with an image, or with an empty manifest. -/
theorem late_manifest {n : Bytes} {ns : List Bytes} (hn : n ≠ ascii "manifest.xml") {evs : List ZEv} {res : Option ZState}
    (h : CliRun true (n :: ns) evs res) (hord : evs ≠ manifestEvents true ++ mainEvents (n :: ns)) :
    res = none ∨ ∃ s, res = some s ∧ ∀ f, s.final = some f → ∃ a rest, f = a :: rest ∧
      (a.1 ≠ ascii "manifest.xml" ∨ a = (ascii "manifest.xml", false)) := by
  obtain ⟨hi, rfl⟩ := h
  rw [mainEvents_cons] at hi hord
  have hi' : Interleave [[.gNew, .gCreate, .gWrite], .mCreate n :: .mWrite :: mainEvents ns] evs := hi
  have hord' : evs ≠ .gNew :: .gCreate :: .gWrite :: .mCreate n :: .mWrite :: mainEvents ns := hord
  clear hi hord
  rcases interleave_two _ _ _ hi' with ⟨_, h, _⟩ | ⟨a, x, l, h1, h2, h3⟩ | ⟨a, y, l, h1, h2, _⟩
  · cases h
  · injection h1 with e1 e2
    subst e1 e2 h2
    right
    rcases interleave_two _ _ _ h3 with ⟨_, h, _⟩ | ⟨a, x, l1, h1, h2, h4⟩ | ⟨a, y, l1, h1, h2, _⟩
    · cases h
    · injection h1 with e1 e2
      subst e1 e2 h2
      rcases interleave_two _ _ _ h4 with ⟨_, h, _⟩ | ⟨a, x, l2, h1, h2, h5⟩ | ⟨a, y, l2, h1, h2, _⟩
      · cases h
      · injection h1 with e1 e2
        subst e1 e2 h2
        rw [interleave_nil_left _ _ h5] at hord'
        exact absurd rfl hord'
      · injection h1 with e1 _
        subst e1 h2
        obtain ⟨s', r1, r2⟩ := firstFixed_run (ascii "manifest.xml", false) l2
          ⟨true, [(ascii "manifest.xml", false), (n, false)], none⟩
          ⟨rfl, ⟨_, [], rfl⟩, fun f hf => by cases hf⟩
        have : zRun .init (.gNew :: .gCreate :: .mCreate n :: l2) =
            zRun ⟨true, [(ascii "manifest.xml", false), (n, false)], none⟩ l2 := rfl
        refine ⟨s', by rw [this, r1], ?_⟩
        intro f hf
        have := r2.2.2 _ hf
        cases f with
        | nil => cases this
        | cons a rest =>
          injection this with this
          exact ⟨a, rest, rfl, .inr this⟩
    · injection h1 with e1 _
      subst e1 h2
      obtain ⟨s', r1, r2⟩ := imageFirst_run l1 ⟨true, [(n, false)], none⟩
        ⟨rfl, ⟨_, [], rfl, hn⟩, fun f hf => by cases hf⟩
      have : zRun .init (.gNew :: .mCreate n :: l1) = zRun ⟨true, [(n, false)], none⟩ l1 := rfl
      refine ⟨s', by rw [this, r1], ?_⟩
      intro f hf
      obtain ⟨a, r, e, hne⟩ := r2.2.2 _ hf
      exact ⟨a, r, e, .inl hne⟩
  · injection h1 with e1 _
    subst e1 h2
    exact .inl rfl

section
variable {F : Type} [GoFloat F] {lib : Lib F} {codec : Codec F} {d d' : Disk} {args : List Bytes} {fl : LocalFlags} {r : SvxReq F} {evs : List ZEv}
  {unzip : Bytes → Option (List (ZFile F))} {unpng : Bytes → Option Pic}

/-- **C92.** If the first image was begun before the manifest was written, and the program still got to its end, svx2stl refuses the
    file. -/
theorem local_late_refused (hfa : Faithful codec unzip unpng) (hro : r.OutPrefix = ascii "out") (h : LocalDone lib codec d fl r evs true d')
    (hord : ¬ ManifestFirst r evs) : svxOpen unzip d' (zipName fl.dim) = .err := by
  generalize hk : true = ok at h
  cases h with
  | failed _ _ => cases hk
  | @ok img s es hi he hs =>
    have hnames := localImages_names (codec := codec) (r := r) (img := img)
    unfold ManifestFirst at hord
    rw [← localImages_fst (codec := codec) r img] at hord
    obtain ⟨n, ns, en⟩ : ∃ n ns, (localImages codec r img).map Prod.fst = n :: ns := ⟨_, _, rfl⟩
    rw [en] at he hnames hord
    rcases late_manifest (hnames n List.mem_cons_self) he hord with e | ⟨s', e, hf⟩
    · cases e
    · injection e with e
      subst e
      obtain ⟨a, rest, rfl, ha⟩ := hf es hs
      have hseen : unzip (codec.zip ((a :: rest).map (localEntry r (localImages codec r img)))) =
          some (((a :: rest).map (localEntry r (localImages codec r img))).map (seen unpng)) := by
        apply hfa.zip
        intro m r' hm
        obtain ⟨x, _, e⟩ := List.mem_map.mp hm
        unfold localEntry at e
        injection e with _ e
        by_cases hx : x.2 = true
        · rw [if_pos hx] at e
          by_cases hm : x.1 = ascii "manifest.xml"
          · rw [if_pos hm] at e
            injection e with e
            rw [← e, hro]
            exact plain_out
          · rw [if_neg hm] at e
            exfalso
            cases hfind : (localImages codec r img).find? (fun i => decide (i.1 = x.1)) with
            | none => rw [hfind] at e; cases e
            | some b =>
              rw [hfind] at e
              have hb := List.mem_of_find?_eq_some hfind
              have e : b.2 = Content.manifest r' := e
              unfold localImages at hb
              rcases List.mem_append.mp hb with hb | hb
              · rcases List.mem_cons.mp hb with rfl | hb
                · cases e
                · obtain ⟨z, _, rfl⟩ := List.mem_map.mp hb
                  cases e
              · rw [List.mem_singleton.mp hb] at e
                cases e
        · rw [if_neg hx] at e
          cases e
      unfold svxOpen
      rw [put_self, Option.bind_some, hseen]
      dsimp only
      unfold svxLoad svxRead
      have hread : readEntries none none (((a :: rest).map (localEntry r (localImages codec r img))).map (seen (F := F) unpng)) = .err := by
        rw [List.map_cons, List.map_cons]
        unfold readEntries
        have hop : (seen (F := F) unpng (localEntry r (localImages codec r img) a)).opens = true := by
          unfold seen
          split <;> rfl
        have hnm : (seen (F := F) unpng (localEntry r (localImages codec r img) a)).name = a.1 := by
          generalize hl : localEntry r (localImages codec r img) a = b
          have hb : b.1 = a.1 := by rw [← hl]; rfl
          cases b with
          | mk b1 b2 => cases b2 <;> exact hb
        rw [hop, hnm, if_neg (by decide)]
        by_cases hm : a.1 = ascii "manifest.xml"
        · rcases ha with h | rfl
          · exact absurd hm h
          · rw [if_pos rfl]
            rfl
        · rw [if_neg hm]
      rw [hread]

/-- What is shown by the slices does not depend on anything but the files. -/
theorem localSlice_exact {lib : Lib F} (hout : zipName fl.dim ∉ split 44 fl.stl) {base : List (Tri (Vec F))} {cuts : List (List (Tri (Vec F)))}
    (hl : loadSTL lib d (split 44 fl.stl) = some (base :: cuts)) {L : Layout F}
    (hL : layout (lib.bbox base) (boxScale (lib.bbox base)) fl.dim fl.nx fl.ny fl.nz = .ok L) {z : Nat} {res : Option Image} :
    LocalSlice lib d fl z res ↔ SliceRun fl.dim z (svxJobs L (lib.bbox base) fl.nx fl.ny fl.nz
      ((lib.mesh base, lib.bbox base) :: cuts.map fun ts => (lib.mesh ts, lib.bbox ts))) res := by
  unfold LocalSlice
  constructor
  · rintro ⟨files, h, hm⟩
    rw [readsAll_iff hout, hl] at h
    subst h
    dsimp only at hm
    rw [hL] at hm
    exact hm
  · intro h
    refine ⟨some (base :: cuts), (readsAll_iff hout).mpr hl.symm, ?_⟩
    dsimp only
    rw [hL]
    exact h

end

variable {lib : Lib ℚ} {codec : Codec ℚ} {d d' : Disk} {args : List Bytes} {fl : LocalFlags} {evs : List ZEv}
  {unzip : Bytes → Option (List (ZFile ℚ))} {unpng : Bytes → Option Pic}

/-- In exact arithmetic, with one layer along z. -/
theorem local_shows (hnz : fl.nz = 1) (hd : 0 < fl.dim) (hn : 0 < fl.nx ∧ 0 < fl.ny) {base : List (Tri (Vec ℚ))}
    {cuts : List (List (Tri (Vec ℚ)))} (hB : Proper (lib.bbox base)) {L : Layout ℚ}
    (hL : layout (lib.bbox base) (boxScale (lib.bbox base)) fl.dim fl.nx fl.ny 1 = .ok L)
    (hout : zipName fl.dim ∉ split 44 fl.stl) (hl : loadSTL lib d (split 44 fl.stl) = some (base :: cuts)) {z : Nat} {img : Image}
    (h : LocalSlice lib d fl z (some img)) :
    Shows img (fl.dim + 2) (fl.dim + 2) (SliceSolid (wholeModel L (lib.bbox base) fl.nx fl.ny 1) (lib.mesh base) (cuts.map lib.mesh) z)
      (fun i j => (i - 1, fl.dim - j)) := by
  obtain ⟨hs, ⟨px, py, _⟩, _⟩ := layout_box hL hd ⟨hn.1, hn.2, by omega⟩ hB
  have h := (localSlice_exact hout hl (by rw [hnz]; exact hL)).mp h
  rw [hnz] at h
  obtain ⟨img', e, hs'⟩ := slice_image_exact (lib.bbox base) _ fl.dim fl.nx fl.ny L hL hs hd px py hn.1 _ _ z (by omega) _ h
  injection e with e
  subst e
  rw [List.map_map] at hs'
  exact hs'

/-- **C92.** The whole way, in exact arithmetic with one layer along z: if stl2svx gets to its end, the manifest was written first and nothing
    went wrong with the file, svx2stl reads `out<dim>.svx` as the model of the first file of `-stl` without the others, one voxel away and
    mirrored along y; with 9999 slices or more svx2stl refuses it. -/
theorem local_svx2stl (hfa : Faithful codec unzip unpng) {names : List Bytes} {base : List (Tri (Vec ℚ))} {cuts : List (List (Tri (Vec ℚ)))}
    {L : Layout ℚ} (hp : Pieces 44 fl.stl names) (hf : FilesHold lib.load d names (base :: cuts)) (hout : zipName fl.dim ∉ names)
    (hnz : fl.nz = 1) (hd : 0 < fl.dim) (hn : 0 < fl.nx ∧ 0 < fl.ny) (hB : Proper (lib.bbox base))
    (hL : layout (lib.bbox base) (boxScale (lib.bbox base)) fl.dim fl.nx fl.ny 1 = .ok L)
    (h : LocalDone lib codec d fl ⟨fl.dim, fl.nx, fl.ny, fl.nz, ascii "out", L, lib.bbox base⟩ evs true d')
    (hord : ManifestFirst (F := ℚ) ⟨fl.dim, fl.nx, fl.ny, fl.nz, ascii "out", L, lib.bbox base⟩ evs) :
    (L.dimZ ≤ 9998 → ∃ b, svxOpen unzip d' (zipName fl.dim) = .ok b ∧
      ∀ k : Key, Present b k ↔ ∃ (z : Nat) (x y : Int), z < L.dimZ.toNat ∧
        SliceSolid (wholeModel L (lib.bbox base) fl.nx fl.ny 1) (lib.mesh base) (cuts.map lib.mesh) z x y ∧
        k = ⟨x + 1, fl.dim - y, z + 1⟩) ∧
    (9999 ≤ L.dimZ → svxOpen unzip d' (zipName fl.dim) = .err) := by
  obtain ⟨img, hi, hd'⟩ := local_archive h hord
  have es : split 44 fl.stl = names := (split_iff _ _ _).mpr hp
  obtain ⟨hs, ⟨px, py, pz⟩, mx, my, _⟩ := layout_box hL hd ⟨hn.1, hn.2, by omega⟩ hB
  subst hd'
  refine archive_read hfa (put_self _ _ _) (r := ⟨fl.dim, fl.nx, fl.ny, fl.nz, ascii "out", L, lib.bbox base⟩) (img := img)
      (solid := fun z => SliceSolid (wholeModel L (lib.bbox base) fl.nx fl.ny 1) (lib.mesh base) (cuts.map lib.mesh) z) rfl pz rfl ?_ ?_ ?_
  · exact List.Perm.cons _ (List.perm_append_singleton _ _)
  · intro z hz
    exact local_shows hnz hd hn hB hL (by rw [es]; exact hout) (by rw [es]; exact loadSTL_iff.mpr hf) (hi z hz)
  · rintro z x y ⟨x0, hfill, _⟩
    obtain ⟨f1, f2, f3⟩ := filled_row hfill
    have f1' : x < fl.nx * L.dimX := f1
    have f3' : y < fl.ny * L.dimY := f3
    dsimp only
    exact ⟨x0, by omega, f2, by omega⟩

theorem shows_unique {a b : Image} {w h : Int} {solid : Int → Int → Prop} {cell : Int → Int → Int × Int}
    (ha : Shows a w h solid cell) (hb : Shows b w h solid cell) : a = b := by
  obtain ⟨a1, a2, a3⟩ := ha
  obtain ⟨b1, b2, b3⟩ := hb
  cases a with
  | mk W H f =>
    cases b with
    | mk W' H' g =>
      dsimp only at a1 a2 b1 b2
      subst a1 a2 b1 b2
      congr 1
      funext x y
      have : f x y = true ↔ g x y = true := (a3 x y).trans (b3 x y).symm
      cases hf : f x y <;> cases hg : g x y <;> simp_all

/-- **C92.** The same job on the network and locally, in exact arithmetic with one layer along z: the two archives have the same
    entries, up to their order. -/
theorem local_is_network {q : Request ℚ} {svx : Bytes} {names : List Bytes} {base : List (Tri (Vec ℚ))} {cuts : List (List (Tri (Vec ℚ)))}
    {L : Layout ℚ} (hp : Pieces 44 fl.stl names) (hf : FilesHold lib.load d names (base :: cuts)) (hout : zipName fl.dim ∉ names)
    (hnz : fl.nz = 1) (hd : 0 < fl.dim) (hn : 0 < fl.nx ∧ 0 < fl.ny) (hB : Proper (lib.bbox base))
    (hL : layout (lib.bbox base) (boxScale (lib.bbox base)) fl.dim fl.nx fl.ny 1 = .ok L)
    (h : LocalDone lib codec d fl ⟨fl.dim, fl.nx, fl.ny, fl.nz, ascii "out", L, lib.bbox base⟩ evs true d')
    (hord : ManifestFirst (F := ℚ) ⟨fl.dim, fl.nx, fl.ny, fl.nz, ascii "out", L, lib.bbox base⟩ evs)
    (hq : q = ⟨fl.dim, fl.nx, fl.ny, fl.nz, ascii "out", base :: cuts⟩) (hsvx : Answers lib codec AllWell q (some svx)) :
    ∃ es es', d' (zipName fl.dim) = some (codec.zip es) ∧ svx = codec.zip es' ∧ es.Perm es' := by
  obtain ⟨img, hi, hd'⟩ := local_archive h hord
  have es : split 44 fl.stl = names := (split_iff _ _ _).mpr hp
  subst hq
  obtain ⟨r, present, img', rest, hL', hr, e, hperm, hshow, hall⟩ :=
    network_images (P := AllWell) (fun s l h => h.1) hsvx (base := base) (cuts := cuts) rfl hnz hd hn hB
  dsimp only at hL' hr e hperm hshow
  rw [hL] at hL'
  injection hL' with hL'
  have hall := hall (fun s l h => h)
  rw [← hL'] at hr e hperm hshow hall
  refine ⟨_, _, by rw [hd']; exact put_self _ _ _, e, ?_⟩
  have hfilt : (List.range L.dimZ.toNat).filter present = List.range L.dimZ.toNat := by
    rw [List.filter_eq_self]
    intro z hz
    exact hall z (List.mem_range.mp hz)
  rw [hfilt] at hperm
  dsimp only
  rw [hr, hnz]
  rw [List.cons_append, List.cons_append]
  refine List.Perm.cons _ (List.Perm.cons _ ((List.perm_append_singleton _ _).trans (List.Perm.cons _ (List.Perm.trans ?_ hperm.symm))))
  have : (List.range L.dimZ.toNat).map (fun z : Nat => (sliceName fl.dim fl.nx fl.ny 1 (z + 1), (Content.raw (codec.png (img z)) : Content ℚ))) =
      (List.range L.dimZ.toNat).map (fun z : Nat => (sliceName fl.dim fl.nx fl.ny 1 (z + 1), Content.raw (codec.png (img' z)))) := by
    apply List.map_congr_left
    intro z hz
    have hz := List.mem_range.mp hz
    have h1 := local_shows hnz hd hn hB hL (by rw [es]; exact hout) (by rw [es]; exact loadSTL_iff.mpr hf) (hi z hz)
    rw [shows_unique h1 (hshow z hz (hall z hz))]
  rw [this]

/-- **C92.** With one layer along z: if all files can be read and the first be divided, a run is possible that
    makes a complete file, even if some other file could not be divided (then no agent on the network would make a slice). -/
theorem local_possible {F : Type} [GoFloat F] {lib : Lib F} {codec : Codec F} (hfl : localFlags args = some fl) (hb : fl.bucket = []) (hs : fl.stl ≠ [])
    {names : List Bytes} {base : List (Tri (Vec F))} {cuts : List (List (Tri (Vec F)))}
    {L : Layout F} (hp : Pieces 44 fl.stl names) (hf : FilesHold lib.load d names (base :: cuts)) (hout : zipName fl.dim ∉ names)
    (hnz : fl.nz = 1)
    (hL : layout (lib.bbox base) (boxScale (lib.bbox base)) fl.dim fl.nx fl.ny 1 = .ok L) :
    ∃ evs d', LocalProc lib codec d args d' .done ∧
      LocalDone lib codec d fl ⟨fl.dim, fl.nx, fl.ny, fl.nz, ascii "out", L, lib.bbox base⟩ evs true d' ∧
      ManifestFirst (F := F) ⟨fl.dim, fl.nx, fl.ny, fl.nz, ascii "out", L, lib.bbox base⟩ evs := by
  have es : split 44 fl.stl = names := (split_iff _ _ _).mpr hp
  have hl : loadSTL lib d (split 44 fl.stl) = some (base :: cuts) := by rw [es]; exact loadSTL_iff.mpr hf
  have hL' : layout (lib.bbox base) (boxScale (lib.bbox base)) fl.dim fl.nx fl.ny fl.nz = .ok L := by rw [hnz]; exact hL
  have hsl : ∀ z : Nat, ∃ img, LocalSlice lib d fl z (some img) := by
    intro z
    obtain ⟨img, hi⟩ := (agent_flat_ok (lib.bbox base) _ fl.dim fl.nx fl.ny L hL (lib.mesh base, lib.bbox base)
      (cuts.map fun ts => (lib.mesh ts, lib.bbox ts)) z).1
    exact ⟨img, (localSlice_exact (by rw [es]; exact hout) hl hL').mpr (by rw [hnz]; exact hi)⟩
  choose img himg using hsl
  let r : SvxReq F := ⟨fl.dim, fl.nx, fl.ny, fl.nz, ascii "out", L, lib.bbox base⟩
  let evs := manifestEvents true ++ mainEvents (localNames r)
  have hne : ∃ n ns, (localImages codec r img).map Prod.fst = n :: ns := ⟨_, _, rfl⟩
  obtain ⟨n, ns, en⟩ := hne
  have hnames := localImages_names (codec := codec) (r := r) (img := img)
  have hord : ManifestFirst r evs := rfl
  have hin : Interleave [manifestEvents true, mainEvents (localNames r)] evs := by
    have two : ∀ (x y : List ZEv), Interleave [x, y] (x ++ y) := by
      intro x y
      induction x with
      | nil =>
        induction y with
        | nil => exact .done _ (by simp)
        | cons a y ih => exact Interleave.step [[]] [] a y y ih
      | cons a x ih => exact Interleave.step [] [y] a x (x ++ y) ih
    exact two _ _
  have hrun : CliRun true ((localImages codec r img).map Prod.fst) evs (zRun .init evs) :=
    ⟨by rw [localImages_fst]; exact hin, rfl⟩
  have hrun' := hrun
  rw [en] at hrun' hnames
  have ho : evs = manifestEvents true ++ mainEvents (n :: ns) := by
    rw [← en, localImages_fst]
  obtain ⟨s, hs1, hs2⟩ := (cli_archive_iff n ns hnames evs _ hrun').mpr ho
  rw [hs1] at hrun
  have hdone := LocalDone.ok (lib := lib) (codec := codec) (d := d) (fl := fl) (r := r) (img := img) (fun z _ => himg z) hrun hs2
  refine ⟨evs, _, ?_, hdone, hord⟩
  cases names with
  | nil => cases hf
  | cons m ms =>
    cases hf with
    | cons h1 h2 =>
      obtain ⟨c, hc, hlc⟩ := h1
      exact LocalProc.done hfl hb hs es (by rw [hc]; exact hlc) hL' hdone

/-! ### A run: the pyramids of `ex_flags`, made locally -/

def exLocal : LocalFlags := ⟨2, 1, 1, 1, ascii "a.stl,b.stl", []⟩

theorem exLocal_flags : localFlags exArgs = some exLocal := by
  unfold localFlags
  have : Flag.parse localKind (fun _ => false) exArgs = .ok [(ascii "dim", ascii "2"), (ascii "nx", ascii "1"), (ascii "ny", ascii "1"),
    (ascii "stl", ascii "a.stl,b.stl")] [] := by rfl
  rw [this]
  rfl

def exLocalLayout : Layout ℚ := ⟨1, 1, 2, 2, 2, 2, 2, 2, 2⟩

theorem exLocal_layout (ts : List (Tri (Vec ℚ))) : layout (exLib.bbox ts) (boxScale (exLib.bbox ts)) exLocal.dim exLocal.nx exLocal.ny 1 = .ok exLocalLayout := by
  show layout (⟨⟨0, 0, 0⟩, ⟨2, 2, 2⟩⟩ : Box ℚ) (boxScale (⟨⟨0, 0, 0⟩, ⟨2, 2, 2⟩⟩ : Box ℚ)) 2 1 1 1 = .ok ⟨1, 1, 2, 2, 2, 2, 2, 2, 2⟩
  decide +kernel

def exLocalReq : SvxReq ℚ := ⟨exLocal.dim, exLocal.nx, exLocal.ny, exLocal.nz, ascii "out", exLocalLayout, exLib.bbox exPyramid⟩

theorem exLocal_pieces {names : List Bytes} (h : Pieces 44 exLocal.stl names) : names = [ascii "a.stl", ascii "b.stl"] := by
  rw [← (split_iff _ _ _).mpr h]
  decide

theorem exLocal_split : Pieces 44 exLocal.stl [ascii "a.stl", ascii "b.stl"] := (split_iff _ _ _).mp (by decide)

theorem exLocal_files : FilesHold exLib.load exNetDisk [ascii "a.stl", ascii "b.stl"] [exPyramid, exPyramid] := loadSTL_iff.mp rfl

theorem exLocal_runs (codec : Codec ℚ) : ∃ (d' : Disk) (evs : List ZEv), LocalProc exLib codec exNetDisk exArgs d' .done ∧
    LocalDone exLib codec exNetDisk exLocal exLocalReq evs true d' ∧ ManifestFirst exLocalReq evs := by
  obtain ⟨evs, d', h1, h2, h3⟩ := local_possible (lib := exLib) (codec := codec) (d := exNetDisk) (base := exPyramid) (cuts := [exPyramid])
    (names := [ascii "a.stl", ascii "b.stl"]) exLocal_flags rfl (by decide) exLocal_split exLocal_files (by decide) rfl (exLocal_layout _)
  exact ⟨d', evs, h1, h2, h3⟩

/-- What svx2stl reads from the archive. -/
example : ∃ (codec : Codec ℚ) (unzip : Bytes → Option (List (ZFile ℚ))) (d' : Disk) (b : BinVOX ℚ),
    LocalProc exLib codec exNetDisk exArgs d' .done ∧ svxOpen unzip d' (ascii "out2.svx") = .ok b ∧
    ∀ k : Key, Present b k ↔ ∃ (z : Nat) (x y : Int), z < 2 ∧
      SliceSolid (wholeModel exLocalLayout ⟨⟨0, 0, 0⟩, ⟨2, 2, 2⟩⟩ 1 1 1) (exLib.mesh exPyramid) [exLib.mesh exPyramid] z x y ∧
      k = ⟨x + 1, 2 - y, z + 1⟩ := by
  obtain ⟨codec, unzip, unpng, hfa⟩ := faithful_exists (F := ℚ)
  obtain ⟨d', evs, h1, h2, h3⟩ := exLocal_runs codec
  obtain ⟨b, hb, hk⟩ := (local_svx2stl hfa exLocal_split exLocal_files (by decide) rfl (by decide) (by decide) (exLib_proper _) (exLocal_layout _) h2 h3).1 (by decide)
  exact ⟨codec, unzip, d', b, h1, hb, hk⟩

/-- The entries of the archive; the network makes the same, up to their order. -/
example (codec : Codec ℚ) : ∃ (d' : Disk) (evs : List ZEv) (svx : Bytes) (es es' : List (Bytes × Content ℚ)),
    LocalProc exLib codec exNetDisk exArgs d' .done ∧ Answers exLib codec AllWell (exRequest (ascii "out")) (some svx) ∧
    (∃ img : Nat → Image, ∀ z < 2, LocalSlice exLib exNetDisk exLocal z (some (img z))) ∧
    d' (zipName 2) = some (codec.zip es) ∧ svx = codec.zip es' ∧ es.Perm es' ∧ evs ≠ [] := by
  obtain ⟨d', evs, h1, h2, h3⟩ := exLocal_runs codec
  obtain ⟨svx, hsvx⟩ := exAnswer codec (ascii "out")
  obtain ⟨es, es', k1, k2, k3⟩ := local_is_network exLocal_split exLocal_files (by decide) rfl (by decide) (by decide) (exLib_proper _)
    (exLocal_layout _) h2 h3 rfl hsvx
  obtain ⟨img, hi, _⟩ := local_archive h2 h3
  refine ⟨d', evs, svx, es, es', h1, hsvx, ⟨img, hi⟩, k1, k2, k3, ?_⟩
  rintro rfl
  revert h3
  unfold ManifestFirst
  decide

/-- The run changes one file, and all files of the command line were there. -/
example (codec : Codec ℚ) : ∃ d' : Disk, (∀ n, n ≠ ascii "out2.svx" → d' n = exNetDisk n) ∧
    ∃ n names cuts, Pieces 44 exLocal.stl (n :: names) ∧ FilesHold exLib.load exNetDisk (n :: names) (exPyramid :: cuts) := by
  obtain ⟨d', evs, h1, h2, h3⟩ := exLocal_runs codec
  refine ⟨d', fun n hn => local_touches exLocal_flags h1 (Or.inl hn), ?_⟩
  obtain ⟨n, names, c, base, L, evs, ok, hp, hn, hl, hL, hd, hf⟩ := local_done exLocal_flags rfl
    (fun names hp => by rw [exLocal_pieces hp]; decide) h1
  have e : L = exLocalLayout := by
    have := hL.symm.trans (exLocal_layout base)
    injection this
  subst e
  have eb : base = exPyramid := (Option.some.inj hl).symm
  subst eb
  obtain ⟨cuts, hf⟩ := hf (by decide)
  exact ⟨n, names, cuts, hp, hf⟩

/-- The other order is possible too: the manifest comes when the archive is closed, and svx2stl refuses the file. -/
def exLate : List ZEv := .gNew :: mainEvents (localNames exLocalReq) ++ [.gCreate, .gWrite]

theorem exLate_end : ∃ s es, zRun .init exLate = some s ∧ s.final = some es := by
  have h : ((zRun .init exLate).bind ZState.final).isSome = true := by decide +kernel
  cases hz : zRun .init exLate with
  | none => rw [hz] at h; cases h
  | some s =>
    rw [hz] at h
    exact ⟨s, _, rfl, Option.eq_some_of_isSome h⟩

example : ∃ (codec : Codec ℚ) (unzip : Bytes → Option (List (ZFile ℚ))) (d' : Disk),
    LocalProc exLib codec exNetDisk exArgs d' .done ∧ svxOpen unzip d' (ascii "out2.svx") = .err := by
  obtain ⟨codec, unzip, unpng, hfa⟩ := faithful_exists (F := ℚ)
  obtain ⟨d', evs, h1, h2, h3⟩ := exLocal_runs codec
  obtain ⟨img, hi, _⟩ := local_archive h2 h3
  obtain ⟨s, es, hz, hs⟩ := exLate_end
  have two : ∀ (x y : List ZEv), Interleave [x, y] (y ++ x) := by
    intro x y
    induction y with
    | nil =>
      induction x with
      | nil => exact .done _ (by simp)
      | cons a x ih => exact Interleave.step [] [[]] a x x ih
    | cons a y ih => exact Interleave.step [x] [] a y _ ih
  have hd : LocalDone exLib codec exNetDisk exLocal exLocalReq exLate true _ := LocalDone.ok hi (by
    rw [localImages_fst]
    exact ⟨Interleave.step [] [_] _ _ _ (two _ _), hz.symm⟩) hs
  refine ⟨codec, unzip, _, LocalProc.done exLocal_flags rfl (by decide) ((split_iff _ _ _).mpr exLocal_split) rfl (exLocal_layout exPyramid) hd, ?_⟩
  refine local_late_refused hfa rfl hd ?_
  unfold ManifestFirst
  decide +kernel

/-- A library that accepts only `solid` files. -/
def exPicky : Lib ℚ := { exLib with load := fun c => if c = ascii "solid" then some exPyramid else none }

/-- The base is there, the cut is not: the program cannot succeed. -/
example (codec : Codec ℚ) : ∀ d' e, LocalProc exPicky codec (put (fun _ => none) (ascii "a.stl") (ascii "solid")) exArgs d' e → e ≠ .done := by
  intro d' e
  refine local_bad_cut exLocal_flags rfl (fun names hp => by rw [exLocal_pieces hp]; decide) exLocal_split
    (n := ascii "b.stl") (by decide) ?_ ?_
  · intro c hc
    rw [put_other _ _ (by decide)] at hc
    cases hc
  · intro c base L _ hL
    have := hL.symm.trans (exLocal_layout base)
    injection this with e
    subst e
    decide

/-- Nothing there at all: nothing happens. -/
example (codec : Codec ℚ) : ∀ d' e, LocalProc exPicky codec (fun _ => none) exArgs d' e → d' = (fun _ => none) ∧ e ≠ .done :=
  fun d' e => local_refused exLocal_flags rfl (fun names n c base _ hc => by cases hc)

/-- No `-stl`: a panic. -/
example (codec : Codec ℚ) : ∀ d' e, LocalProc exLib codec exNetDisk [ascii "-dim", ascii "2"] d' e → d' = exNetDisk ∧ e = .panic := by
  intro d' e
  refine local_no_stl (fl := ⟨2, 8, 8, 1, [], []⟩) ?_ rfl rfl
  unfold localFlags
  have : Flag.parse localKind (fun _ => false) [ascii "-dim", ascii "2"] = .ok [(ascii "dim", ascii "2")] [] := by rfl
  rw [this]
  rfl

end Local
end StlDice
