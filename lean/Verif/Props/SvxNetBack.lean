import Verif.Props.SvxNet
import Verif.Props.SvxCmd
import Mathlib.Tactic.DeriveCountable
import Mathlib.Data.Rat.Encodable
import Mathlib.Data.Countable.Basic

/-! # C90: what the file of a network job shows, and what svx2stl makes of it -/

namespace StlDice
namespace Net
open Spec BinVOX Flag Cmd

/-- The lower corner of a box is below the upper one. -/
def Proper (B : Box ℚ) : Prop := B.Min.X ≤ B.Max.X ∧ B.Min.Y ≤ B.Max.Y ∧ B.Min.Z ≤ B.Max.Z

/-- A box that can be divided has an extent, its tiles have voxels, and together not more than `dim` along an axis. -/
theorem layout_box {B : Box ℚ} {dim nx ny nz : Int} {L : Layout ℚ} (h : layout B (boxScale B) dim nx ny nz = .ok L)
    (hd : 0 < dim) (hn : 0 < nx ∧ 0 < ny ∧ 0 < nz) (hB : Proper B) :
    0 < boxScale B ∧ (0 < L.dimX ∧ 0 < L.dimY ∧ 0 < L.dimZ) ∧ nx * L.dimX ≤ dim ∧ ny * L.dimY ≤ dim ∧ nz * L.dimZ ≤ dim := by
  obtain ⟨_, _, _, hx, hy, hz, e1, _, e3, e4, e5, e6, e7, e8, _⟩ := layout_ok h
  have ev : L.vpmm = (dim : ℚ) / boxScale B := e1
  rw [ev] at e3 e4 e5
  have hdq : (0 : ℚ) < dim := by exact_mod_cast hd
  obtain ⟨b1, b2, b3, _⟩ := boxScale_rat B
  obtain ⟨B1, B2, B3⟩ := hB
  have hs0 : 0 ≤ boxScale B := by linarith
  have hs : 0 < boxScale B := by
    rcases lt_or_eq_of_le hs0 with h | h
    · exact h
    · exfalso
      rw [← h, div_zero] at e3
      rw [voxelsAlong_rat _ _ _ (by rw [mul_zero]), mul_zero, Int.ceil_zero] at e3
      rw [e6, e3, Int.zero_tdiv] at hx
      exact hx rfl
  have axis : ∀ {lo hi : ℚ} {m n D : Int}, lo ≤ hi → hi - lo ≤ boxScale B → m = voxelsAlong lo hi (dim / boxScale B) →
      0 < n → D = m.tdiv n → D ≠ 0 → 0 < D ∧ n * D ≤ dim := by
    intro lo hi m n D hlh hle em hn eD hD
    have h0 : 0 ≤ (hi - lo) * ((dim : ℚ) / boxScale B) := mul_nonneg (by linarith) (div_nonneg hdq.le hs.le)
    rw [voxelsAlong_rat _ _ _ h0] at em
    have m0 : 0 ≤ m := by rw [em]; exact Int.ceil_nonneg h0
    have md : m ≤ dim := by
      rw [em, Int.ceil_le, show (hi - lo) * ((dim : ℚ) / boxScale B) = (hi - lo) * dim / boxScale B by ring, div_le_iff₀ hs,
        mul_comm (dim : ℚ)]
      exact mul_le_mul_of_nonneg_right hle hdq.le
    rw [Int.tdiv_eq_ediv_of_nonneg m0] at eD
    have d0 : 0 ≤ m / n := Int.ediv_nonneg m0 hn.le
    have : n * (m / n) ≤ m := by
      have := Int.mul_ediv_add_emod m n
      have := Int.emod_nonneg m (show n ≠ 0 by omega)
      omega
    rw [eD] at hD ⊢
    exact ⟨by omega, by omega⟩
  have ax := axis B1 b1 e3 hn.1 e6 hx
  have ay := axis B2 b2 e4 hn.2.1 e7 hy
  have az := axis B3 b3 e5 hn.2.2 e8 hz
  exact ⟨hs, ⟨ax.1, ay.1, az.1⟩, ax.2, ay.2, az.2⟩

variable {lib : Lib ℚ} {codec : Codec ℚ}

/-- What an agent returns in exact arithmetic. -/
theorem agent_shows {q : Request ℚ} {base : List (Tri (Vec ℚ))} {cuts : List (List (Tri (Vec ℚ)))} {L : Layout ℚ}
    (hf : q.StlFiles = base :: cuts) (hnz : q.NZ = 1) (hd : 0 < q.Dim) (hn : 0 < q.NX ∧ 0 < q.NY) (hB : Proper (lib.bbox base))
    (hL : layout (lib.bbox base) (boxScale (lib.bbox base)) q.Dim q.NX q.NY 1 = .ok L) {z : Nat} {img : Image}
    (h : Agent lib q z (some img)) :
    Shows img (q.Dim + 2) (q.Dim + 2) (SliceSolid (wholeModel L (lib.bbox base) q.NX q.NY 1) (lib.mesh base) (cuts.map lib.mesh) z)
      (fun i j => (i - 1, q.Dim - j)) := by
  unfold Agent at h
  rw [hf, hnz, List.map_cons] at h
  obtain ⟨hs, ⟨px, py, _⟩, _⟩ := layout_box hL hd ⟨hn.1, hn.2, by omega⟩ hB
  have hok : ∀ f ∈ ((lib.mesh base, lib.bbox base) :: cuts.map fun ts => (lib.mesh ts, lib.bbox ts)),
      ∃ L, layout f.2 (boxScale f.2) q.Dim q.NX q.NY 1 = .ok L := by
    unfold AgentSliceRun at h
    dsimp only at h
    rcases h with ⟨L', hL', hc, _⟩ | ⟨_, e⟩
    · intro f hf
      rcases List.mem_cons.mp hf with rfl | hf
      · exact ⟨L', hL'⟩
      · exact hc f hf
    · cases e
  obtain ⟨L', hL', himg⟩ := agent_files_exact q.Dim q.NX q.NY z (lib.mesh base, lib.bbox base) _ hok hs hd hn.1 (by omega)
  dsimp only at hL' himg
  rw [hL] at hL'
  injection hL' with e
  subst e
  obtain ⟨img', e, hs'⟩ := himg px py _ h
  injection e with e
  subst e
  rw [List.map_map] at hs'
  exact hs'

/-- **C90.** The file of a network job in exact arithmetic, with one layer along z: the manifest, black images number 0 and
    `DimZ + 1`, and images of slices `z` under number `z + 1` (of all slices if no call of an agent failed), each of which shows exactly
    the cells of slice `z` that the undiced voxelization of the first file of `-stl` fills and that of no other file does. -/
theorem network_images {P : MState ℚ → MLabel ℚ → Prop} (hP : ∀ s l, P s l → Alone s l)
    {q : Request ℚ} {svx : Bytes} (h : Answers lib codec P q (some svx))
    {base : List (Tri (Vec ℚ))} {cuts : List (List (Tri (Vec ℚ)))}
    (hf : q.StlFiles = base :: cuts) (hnz : q.NZ = 1) (hd : 0 < q.Dim) (hn : 0 < q.NX ∧ 0 < q.NY) (hB : Proper (lib.bbox base)) :
    ∃ (r : SvxReq ℚ) (present : Nat → Bool) (img : Nat → Image) (rest : List (Bytes × Content ℚ)),
      layout (lib.bbox base) (boxScale (lib.bbox base)) q.Dim q.NX q.NY 1 = .ok r.L ∧
      r = ⟨q.Dim, q.NX, q.NY, 1, q.OutPrefix, r.L, lib.bbox base⟩ ∧
      svx = codec.zip ((ascii "manifest.xml", .manifest r) ::
        (sliceName q.Dim q.NX q.NY 1 0, .blank (q.Dim + 2)) ::
        (sliceName q.Dim q.NX q.NY 1 (r.L.dimZ + 1), .blank (q.Dim + 2)) :: rest) ∧
      rest.Perm (((List.range r.L.dimZ.toNat).filter present).map fun z : Nat =>
        (sliceName q.Dim q.NX q.NY 1 (z + 1), .raw (codec.png (img z)))) ∧
      (∀ z < r.L.dimZ.toNat, present z = true →
        Shows (img z) (q.Dim + 2) (q.Dim + 2)
          (SliceSolid (wholeModel r.L (lib.bbox base) q.NX q.NY 1) (lib.mesh base) (cuts.map lib.mesh) z)
          (fun i j => (i - 1, q.Dim - j))) ∧
      ((∀ s l, P s l → AllWell s l) → ∀ z < r.L.dimZ.toNat, present z = true) := by
  obtain ⟨r, present, img, rest, h1, h2, h3, h4, h5⟩ := answer_exact hP h
  obtain ⟨base', cuts', hf', _, hL, hr⟩ := newJob_ok_iff.mp h1
  rw [hf] at hf'
  injection hf' with e1 e2
  subst e1 e2
  rw [hnz] at h2 h3 hL hr
  exact ⟨r, present, img, rest, hL, hr, h2, h3, fun z hz hp => agent_shows hf hnz hd hn hB hL (h4 z hz hp), h5⟩

/-! ## svx2stl -/

theorem clip_shows {img : Image} {w h : Int} {solid : Int → Int → Prop} {cell : Int → Int → Int × Int}
    (hs : Shows img w h solid cell) : clip img = img := by
  obtain ⟨hw, hh, hwhite⟩ := hs
  cases img with
  | mk W H white =>
    dsimp only at hw hh
    subst hw hh
    unfold clip
    dsimp only
    congr 1
    funext x y
    by_cases hx : 0 ≤ x ∧ x < W ∧ 0 ≤ y ∧ y < H
    · rw [decide_eq_true hx, Bool.true_and]
    · rw [decide_eq_false hx, Bool.false_and]
      cases hv : white x y with
      | false => rfl
      | true =>
        obtain ⟨h1, h2, h3, h4, _⟩ := (hwhite x y).mp hv
        exact absurd ⟨h1, h2, h3, h4⟩ hx

theorem grid_parse {F : Type} [GoFloat F] {r : SvxReq F} (hp : r.OutPrefix = ascii "out") : parseManifest (some (manifestGrid r)) =
    some (⟨(manifestOf r).gridSizeX, (manifestOf r).gridSizeY, (manifestOf r).gridSizeZ, GoFloat.ofInt 0, GoFloat.ofInt 0, GoFloat.ofInt 0,
      GoFloat.mul (manifestOf r).voxelSize (GoFloat.lit 1000), some [], none⟩, svxFmt r.Dim r.NX r.NY r.NZ) := by
  have e : fmtInt r.Dim ++ ascii "/" ++ ascii "out" ++ ascii "-" = fmtInt r.Dim ++ ascii "/out-" := by
    have : ascii "/out-" = ascii "/" ++ ascii "out" ++ ascii "-" := by decide
    rw [this]
    simp only [List.append_assoc]
  unfold parseManifest manifestGrid
  dsimp only
  rw [if_neg (List.cons_ne_nil _ _)]
  simp only [List.foldl_cons, List.foldl_nil, if_true]
  unfold svxFmt
  rw [hp, e]

theorem plain_out : PlainText (ascii "out") := by
  unfold PlainText
  decide

section
variable {F : Type} [GoFloat F] {codec : Codec F} {unzip : Bytes → Option (List (ZFile F))} {unpng : Bytes → Option Pic}

/-- What svx2stl makes of an archive with the manifest of a job and, in any order, its images. -/
theorem archive_read (hfa : Faithful codec unzip unpng) {d' : Disk} {name svx : Bytes} (hfile : d' name = some svx) {r : SvxReq F}
    {img : Nat → Image} {rest : List (Bytes × Content F)} {solid : Nat → Int → Int → Prop}
    (hro : r.OutPrefix = ascii "out") (hpos : 0 < r.L.dimZ) (hsvx : svx = codec.zip ((ascii "manifest.xml", .manifest r) :: rest))
    (hperm : rest.Perm ((sliceName r.Dim r.NX r.NY r.NZ 0, .blank (r.Dim + 2)) ::
      (sliceName r.Dim r.NX r.NY r.NZ (r.L.dimZ + 1), .blank (r.Dim + 2)) ::
      (List.range r.L.dimZ.toNat).map fun z : Nat => (sliceName r.Dim r.NX r.NY r.NZ (z + 1), .raw (codec.png (img z)))))
    (hshow : ∀ z < r.L.dimZ.toNat, Shows (img z) (r.Dim + 2) (r.Dim + 2) (solid z) (fun i j => (i - 1, r.Dim - j)))
    (hin : ∀ z x y, solid z x y → 0 ≤ x ∧ x ≤ r.Dim ∧ 0 ≤ y ∧ y ≤ r.Dim) :
    (r.L.dimZ ≤ 9998 → ∃ b, svxOpen unzip d' name = .ok b ∧
      ∀ k : Key, Present b k ↔ ∃ (z : Nat) (x y : Int), z < r.L.dimZ.toNat ∧ solid z x y ∧ k = ⟨x + 1, r.Dim - y, z + 1⟩) ∧
    (9999 ≤ r.L.dimZ → svxOpen unzip d' name = .err) := by
  have hseen : unzip svx = some (((ascii "manifest.xml", Content.manifest r) :: rest).map (seen unpng)) := by
    rw [hsvx]
    apply hfa.zip
    intro n r' hm
    rcases List.mem_cons.mp hm with e | hm
    · injection e with _ e
      injection e with e
      rw [e, hro]
      exact plain_out
    have hm := hperm.mem_iff.mp hm
    rcases List.mem_cons.mp hm with e | hm
    · injection e with _ e
      cases e
    rcases List.mem_cons.mp hm with e | hm
    · injection e with _ e
      cases e
    · obtain ⟨z, _, e⟩ := List.mem_map.mp hm
      injection e with _ e
      cases e
  rw [List.map_cons] at hseen
  have hn' : ((r.L.dimZ.toNat : Nat) : Int) = r.L.dimZ := Int.toNat_of_nonneg hpos.le
  have hes : (rest.map (seen unpng)).Perm ((List.range (r.L.dimZ.toNat + 2)).map fun k =>
      imageEntry r.Dim r.NX r.NY r.NZ (k : Nat) (svxImages r.Dim r.L.dimZ.toNat img k)) := by
    have er : (List.range (r.L.dimZ.toNat + 2)).map (fun k : Nat =>
        (imageEntry r.Dim r.NX r.NY r.NZ (k : Nat) (svxImages r.Dim r.L.dimZ.toNat img k) : ZFile F)) =
        imageEntry r.Dim r.NX r.NY r.NZ 0 (Image.blank (r.Dim + 2) (r.Dim + 2)) ::
          (((List.range r.L.dimZ.toNat).map fun z : Nat => imageEntry r.Dim r.NX r.NY r.NZ (z + 1) (img z)) ++
            [imageEntry r.Dim r.NX r.NY r.NZ (r.L.dimZ + 1) (Image.blank (r.Dim + 2) (r.Dim + 2))]) := by
      rw [List.range_succ_eq_map, List.map_cons, List.map_map, List.range_succ, List.map_append]
      congr 1
      congr 1
      · apply List.map_congr_left
        intro z hz
        have hz := List.mem_range.mp hz
        show imageEntry r.Dim r.NX r.NY r.NZ ((z + 1 : Nat) : Int) (svxImages r.Dim r.L.dimZ.toNat img (z + 1)) = _
        unfold svxImages
        rw [if_neg (by omega)]
        push_cast
        rfl
      · show [imageEntry r.Dim r.NX r.NY r.NZ ((r.L.dimZ.toNat + 1 : Nat) : Int)
          (svxImages r.Dim r.L.dimZ.toNat img (r.L.dimZ.toNat + 1))] = _
        unfold svxImages
        rw [if_pos (Or.inr rfl)]
        push_cast
        rw [hn']
    rw [er]
    refine (hperm.map _).trans ?_
    rw [List.map_cons, List.map_cons]
    refine List.Perm.cons _ ?_
    refine List.Perm.trans ?_ (List.perm_append_singleton _ _).symm
    refine List.Perm.cons _ ?_
    rw [List.map_map]
    have : (List.range r.L.dimZ.toNat).map (seen unpng ∘ fun z : Nat =>
        (sliceName r.Dim r.NX r.NY r.NZ (z + 1), Content.raw (codec.png (img z)))) =
        (List.range r.L.dimZ.toNat).map fun z : Nat => imageEntry (F := F) r.Dim r.NX r.NY r.NZ (z + 1) (img z) := by
      apply List.map_congr_left
      intro z hz
      have hz := List.mem_range.mp hz
      show seen (F := F) unpng (sliceName r.Dim r.NX r.NY r.NZ (z + 1), Content.raw (codec.png (img z))) = _
      unfold seen imageEntry
      dsimp only
      rw [hfa.png, clip_shows (hshow z hz)]
    rw [this]
  obtain ⟨b0, hpm, hw⟩ : ∃ b0 : BinVOX F, parseManifest (seen (F := F) unpng (ascii "manifest.xml", Content.manifest r)).xml =
      some (b0, svxFmt r.Dim r.NX r.NY r.NZ) ∧ b0.ColorVoxels = none := ⟨_, grid_parse (r := r) hro, rfl⟩
  constructor
  · intro hle
    obtain ⟨m', h1, h2, h3⟩ := svx_readback_mirrored _ (rest.map (seen unpng)) b0 r.Dim r.NX r.NY r.NZ r.L.dimZ.toNat img
      solid rfl rfl hpm hes hshow hin (by omega)
    refine ⟨{ b0 with WhiteVoxels := some m' }, ?_, ?_⟩
    · unfold svxOpen
      rw [hfile, Option.bind_some, hseen]
      exact h1
    · intro k
      rw [← h3 k, present_vox (b := { b0 with WhiteVoxels := some m' }) (by unfold WhiteOnly BinVOX.color; dsimp only; rw [hw]; rfl)]
      exact Iff.rfl
  · intro hge
    have := (svx_readback _ (rest.map (seen unpng)) _ r.Dim r.NX r.NY r.NZ r.L.dimZ.toNat img rfl rfl hpm hes).2 (by omega)
    unfold svxOpen
    rw [hfile, Option.bind_some, hseen]
    exact this

end

variable {unzip : Bytes → Option (List (ZFile ℚ))} {unpng : Bytes → Option Pic}

/-- **C90.** The whole way: a client run with the prefix `out` and one layer along z, at a master that runs one job at a time and
    whose agents do not fail.  If it succeeds, svx2stl reads its file as the model of the first file of `-stl` without the others, one
    voxel away and mirrored along y; with 9999 slices or more svx2stl refuses it. -/
theorem network_svx2stl (hfa : Faithful codec unzip unpng) {d d' : Disk} {args : List Bytes} {fl : ClientFlags}
    (hfl : clientFlags args = some fl)
    (h : ClientProc lib (fun _ q r => Answers lib codec AllWell q r) d args d' .done)
    (hpre : fl.pre = ascii "out") (hnz : fl.nz = 1) (hd : 0 < fl.dim) (hn : 0 < fl.nx ∧ 0 < fl.ny)
    (hB : ∀ ts, Proper (lib.bbox ts)) :
    ∃ names base cuts L, Pieces 44 fl.stl names ∧ FilesHold lib.load d names (base :: cuts) ∧
      layout (lib.bbox base) (boxScale (lib.bbox base)) fl.dim fl.nx fl.ny 1 = .ok L ∧
      (L.dimZ ≤ 9998 → ∃ b, svxOpen unzip d' (outName (ascii "out") fl.dim fl.nx fl.ny 1) = .ok b ∧
        ∀ k : Key, Present b k ↔ ∃ (z : Nat) (x y : Int), z < L.dimZ.toNat ∧
          SliceSolid (wholeModel L (lib.bbox base) fl.nx fl.ny 1) (lib.mesh base) (cuts.map lib.mesh) z x y ∧
          k = ⟨x + 1, fl.dim - y, z + 1⟩) ∧
      (9999 ≤ L.dimZ → svxOpen unzip d' (outName (ascii "out") fl.dim fl.nx fl.ny 1) = .err) := by
  rcases client_done h with ⟨hp, _⟩ | ⟨fl', names, files, svx, h1, h2, h3, h4, h5, h6⟩
  · unfold clientFlags at hfl
    rw [hp] at hfl
    cases hfl
  rw [hfl] at h1
  injection h1 with h1
  subst h1
  cases files with
  | nil =>
    exfalso
    obtain ⟨r, _, _, _, hr, _⟩ := answer_exact (fun s l h => h.1) h5
    obtain ⟨_, _, hf, _⟩ := newJob_ok_iff.mp hr
    cases hf
  | cons base cuts =>
    obtain ⟨r, present, img, rest, hL, hr, hsvx, hperm, hshow, hall⟩ :=
      network_images (P := AllWell) (fun s l h => h.1) h5 (base := base) (cuts := cuts) rfl hnz hd hn (hB base)
    dsimp only at hL hr hsvx hperm hshow
    have hall := hall (fun s l h => h)
    obtain ⟨hs, ⟨px, py, pz⟩, mx, my, _⟩ := layout_box hL hd ⟨hn.1, hn.2, by omega⟩ (hB base)
    refine ⟨names, base, cuts, r.L, h3, h4, hL, ?_⟩
    rw [hnz, hpre] at h6
    have hfile : d' (outName (ascii "out") fl.dim fl.nx fl.ny 1) = some svx := by
      rw [h6]
      exact put_self _ _ _
    have hfilt : (List.range r.L.dimZ.toNat).filter present = List.range r.L.dimZ.toNat := by
      rw [List.filter_eq_self]
      intro z hz
      exact hall z (List.mem_range.mp hz)
    rw [hfilt] at hperm
    have hro : r.OutPrefix = ascii "out" := by rw [hr]; exact hpre
    have d1 : r.Dim = fl.dim := by rw [hr]
    have d2 : r.NX = fl.nx := by rw [hr]
    have d3 : r.NY = fl.ny := by rw [hr]
    have d4 : r.NZ = 1 := by rw [hr]
    have := archive_read hfa hfile hro pz hsvx (img := img)
      (solid := fun z => SliceSolid (wholeModel r.L (lib.bbox base) fl.nx fl.ny 1) (lib.mesh base) (cuts.map lib.mesh) z)
      (by rw [d1, d2, d3, d4]; exact (hperm.cons _).cons _) (by rw [d1]; exact fun z hz => hshow z hz (hall z hz)) (by
        rw [d1]
        rintro z x y ⟨x0, hfill, _⟩
        obtain ⟨f1, f2, f3⟩ := filled_row hfill
        have f1' : x < fl.nx * r.L.dimX := f1
        have f3' : y < fl.ny * r.L.dimY := f3
        exact ⟨x0, by omega, f2, by omega⟩)
    rw [d1] at this
    exact this

/-- **C90.** With another prefix svx2stl refuses the file: the images are not under the names the manifest tells. -/
theorem network_prefix_refused {F : Type} [GoFloat F] {lib : Lib F} {codec : Codec F} {unzip : Bytes → Option (List (ZFile F))}
    (hfa : Faithful codec unzip unpng) {d d' : Disk} {args : List Bytes} {fl : ClientFlags} (hfl : clientFlags args = some fl)
    (h : ClientProc lib (fun _ q r => Answers lib codec Alone q r) d args d' .done)
    (hplain : PlainText fl.pre) (hpre : fl.pre ≠ ascii "out") (h0 : 0 ≤ fl.dim ∧ 0 ≤ fl.nx ∧ 0 ≤ fl.ny ∧ 0 ≤ fl.nz) :
    svxOpen unzip d' (outName fl.pre fl.dim fl.nx fl.ny fl.nz) = .err := by
  rcases client_done h with ⟨hp, _⟩ | ⟨fl', names, files, svx, h1, h2, h3, h4, h5, h6⟩
  · unfold clientFlags at hfl
    rw [hp] at hfl
    cases hfl
  rw [hfl] at h1
  injection h1 with h1
  subst h1
  obtain ⟨r, present, img, rest, hr, hsvx, hperm, _, _⟩ := answer_exact (P := Alone) (fun s l h => h) h5
  obtain ⟨base, cuts, _, _, _, hrq⟩ := newJob_ok_iff.mp hr
  dsimp only at hrq hsvx hperm
  have hro : r.OutPrefix = fl.pre := by rw [hrq]
  have d1 : r.Dim = fl.dim := by rw [hrq]
  have d2 : r.NX = fl.nx := by rw [hrq]
  have d3 : r.NY = fl.ny := by rw [hrq]
  have d4 : r.NZ = fl.nz := by rw [hrq]
  have hfile : d' (outName fl.pre fl.dim fl.nx fl.ny fl.nz) = some svx := by
    rw [h6]
    exact put_self _ _ _
  have hseen : unzip svx = some (((ascii "manifest.xml", Content.manifest r) ::
      (sliceName fl.dim fl.nx fl.ny fl.nz 0, .blank (fl.dim + 2)) ::
      (sliceName fl.dim fl.nx fl.ny fl.nz (r.L.dimZ + 1), .blank (fl.dim + 2)) :: rest).map (seen unpng)) := by
    rw [hsvx]
    apply hfa.zip
    intro n r' hm
    rcases List.mem_cons.mp hm with e | hm
    · injection e with _ e
      injection e with e
      rw [e, hro]
      exact hplain
    rcases List.mem_cons.mp hm with e | hm
    · injection e with _ e
      cases e
    rcases List.mem_cons.mp hm with e | hm
    · injection e with _ e
      cases e
    · obtain ⟨z, _, e⟩ := List.mem_map.mp (hperm.mem_iff.mp hm)
      injection e with _ e
      cases e
  have nd : ∀ i : Int, 0 ≤ i → (45 : UInt8) ∉ fmtInt i := by
    intro i hi hm
    rw [fmtInt_nonneg hi] at hm
    have := fmtNat_digits _ _ hm
    revert this
    decide
  have nd4 : (45 : UInt8) ∉ padInt 4 0 := by decide
  have hscan : sscanf {
      pre := fmtInt fl.dim ++ ascii "/" ++ fl.pre ++ ascii "-" ++ fmtInt fl.dim ++ ascii "-" ++ fmtInt fl.nx ++ ascii "-" ++
        fmtInt fl.ny ++ ascii "-" ++ fmtInt fl.nz ++ ascii "-"
      width := 4
      post := ascii ".png" } (sliceName fl.dim fl.nx fl.ny fl.nz 0) = none := by
    unfold sscanf
    dsimp only
    cases hst : stripPrefix (fmtInt fl.dim ++ ascii "/" ++ fl.pre ++ ascii "-" ++ fmtInt fl.dim ++ ascii "-" ++ fmtInt fl.nx ++
        ascii "-" ++ fmtInt fl.ny ++ ascii "-" ++ fmtInt fl.nz ++ ascii "-") (sliceName fl.dim fl.nx fl.ny fl.nz 0) with
    | none => rfl
    | some rem =>
      exfalso
      have hst := stripPrefix_some hst
      unfold sliceName at hst
      have ed : ascii "-" = [45] := by decide
      have eo : ascii "/out-" = ascii "/" ++ (ascii "out" ++ [45]) := by decide
      rw [ed, eo] at hst
      simp only [List.append_assoc] at hst
      have hst := List.append_cancel_left (List.append_cancel_left hst)
      have hc := congrArg (List.count 45) hst
      have c0 : ∀ l : Bytes, (45 : UInt8) ∉ l → List.count 45 l = 0 := fun l h => List.count_eq_zero.mpr h
      simp only [List.count_append, c0 _ (nd _ h0.1), c0 _ (nd _ h0.2.1), c0 _ (nd _ h0.2.2.1), c0 _ (nd _ h0.2.2.2), c0 _ nd4] at hc
      have c1 : List.count (45 : UInt8) [45] = 1 := by decide
      have c2 : List.count (45 : UInt8) (ascii "out") = 0 := by decide
      have c3 : List.count (45 : UInt8) (ascii ".png") = 0 := by decide
      rw [c1, c2, c3] at hc
      have hp0 : (45 : UInt8) ∉ fl.pre := List.count_eq_zero.mp (by omega)
      exact hpre (first_piece (by decide) hp0 hst).1.symm
  unfold svxOpen
  rw [hfile, Option.bind_some, hseen]
  unfold svxLoad svxRead
  have hread : readEntries none none (((ascii "manifest.xml", Content.manifest r) ::
      (sliceName fl.dim fl.nx fl.ny fl.nz 0, .blank (fl.dim + 2)) ::
      (sliceName fl.dim fl.nx fl.ny fl.nz (r.L.dimZ + 1), .blank (fl.dim + 2)) :: rest).map (seen (F := F) unpng)) = .err := by
    rw [List.map_cons, List.map_cons]
    unfold readEntries seen
    dsimp only
    rw [if_neg (by decide), if_pos rfl]
    have hpm : parseManifest (some (manifestGrid r)) = some (⟨(manifestOf r).gridSizeX, (manifestOf r).gridSizeY,
        (manifestOf r).gridSizeZ, GoFloat.ofInt 0, GoFloat.ofInt 0, GoFloat.ofInt 0,
        GoFloat.mul (manifestOf r).voxelSize (GoFloat.lit 1000), some [], none⟩, {
      pre := fmtInt fl.dim ++ ascii "/" ++ fl.pre ++ ascii "-" ++ fmtInt fl.dim ++ ascii "-" ++ fmtInt fl.nx ++ ascii "-" ++
        fmtInt fl.ny ++ ascii "-" ++ fmtInt fl.nz ++ ascii "-"
      width := 4
      post := ascii ".png" }) := by
      unfold parseManifest manifestGrid
      dsimp only
      rw [if_neg (List.cons_ne_nil _ _)]
      simp only [List.foldl_cons, List.foldl_nil, if_true]
      rw [d1, d2, d3, d4, hro]
    rw [hpm]
    dsimp only
    unfold readEntries
    dsimp only
    rw [if_neg (by decide), if_neg (sliceName_ne_manifest _ _ _ _ _), hscan]
  dsimp only
  rw [hread]

end Net
end StlDice
