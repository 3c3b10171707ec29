import Verif.Model.MrCmd
import Verif.Props.SvxNetRuns
import Verif.Props.Gaps

/-! # C93: stldice-mr from its command line to its files -/

namespace StlDice
namespace Mr
open Spec BinVOX Flag Cmd Net

/-- **C93.** The flags of stldice-mr: `-dim` (8192), `-nx` (8), `-ny` (8), `-nz` (1), `-stl`; other arguments are ignored. -/
theorem mr_flags_iff {args : List Bytes} {fl : MrFlags} : mrFlags args = some fl ↔
    ∃ sets rest, CommandLine mrKind (fun _ => false) sets rest args ∧
      IntFlag sets "dim" 8192 fl.dim ∧ IntFlag sets "nx" 8 fl.nx ∧ IntFlag sets "ny" 8 fl.ny ∧ IntFlag sets "nz" 1 fl.nz ∧
      StrFlag sets "stl" [] fl.stl := by
  unfold mrFlags
  cases hp : parse mrKind (fun _ => false) args with
  | exit b =>
    constructor
    · intro h; cases h
    · rintro ⟨sets, files, h, -⟩
      rw [parse_iff.mpr h] at hp
      cases hp
  | ok sets rest =>
    dsimp only
    have hc := parse_iff.mp hp
    constructor
    · intro h
      injection h with h
      subst h
      exact ⟨sets, rest, hc, (getInt_iff hc.1 (by decide)).mp rfl, (getInt_iff hc.1 (by decide)).mp rfl,
        (getInt_iff hc.1 (by decide)).mp rfl, (getInt_iff hc.1 (by decide)).mp rfl, getStr_iff.mp rfl⟩
    · rintro ⟨sets', files, h, h1, h2, h3, h4, h5⟩
      rw [parse_iff.mpr h] at hp
      injection hp with e1 e2
      subst e1
      have e5 : fl.stl = getStr sets' (ascii "stl") := getStr_iff.mpr h5
      rw [← (getInt_iff h.1 (by decide)).mpr h1, ← (getInt_iff h.1 (by decide)).mpr h2,
        ← (getInt_iff h.1 (by decide)).mpr h3, ← (getInt_iff h.1 (by decide)).mpr h4, ← e5]

theorem digits_read : ∀ {a b : Bytes} {c c' : UInt8} {r r' : Bytes}, (∀ x ∈ a, isDigit x = true) → (∀ x ∈ b, isDigit x = true) →
    isDigit c = false → isDigit c' = false → a ++ c :: r = b ++ c' :: r' → a = b ∧ c :: r = c' :: r'
  | [], [], _, _, _, _, _, _, _, _, h => ⟨rfl, h⟩
  | [], y :: b, c, c', r, r', _, hb, hc, _, h => by
    rw [List.nil_append, List.cons_append] at h
    injection h with h1 h2
    rw [h1, hb y List.mem_cons_self] at hc
    cases hc
  | x :: a, [], c, c', r, r', ha, _, _, hc', h => by
    rw [List.nil_append, List.cons_append] at h
    injection h with h1 h2
    rw [← h1, ha x List.mem_cons_self] at hc'
    cases hc'
  | x :: a, y :: b, c, c', r, r', ha, hb, hc, hc', h => by
    rw [List.cons_append, List.cons_append] at h
    injection h with h1 h2
    obtain ⟨e1, e2⟩ := digits_read (fun z hz => ha z (List.mem_cons_of_mem _ hz)) (fun z hz => hb z (List.mem_cons_of_mem _ hz)) hc hc' h2
    exact ⟨by rw [h1, e1], e2⟩

/-- An integer followed by something that is not a digit can be read back. -/
theorem fmtInt_read {i j : Int} {c c' : UInt8} {r r' : Bytes} (hc : isDigit c = false) (hc' : isDigit c' = false)
    (h : fmtInt i ++ c :: r = fmtInt j ++ c' :: r') : i = j ∧ c :: r = c' :: r' := by
  have nat_inj : ∀ {m n : Nat}, fmtNat m = fmtNat n → m = n := fun {m n} h => by rw [← fmtNat_val m, h, fmtNat_val]
  have mix : ∀ {m n : Nat} {c c' : UInt8} {r r' : Bytes}, fmtNat m ++ c :: r ≠ 45 :: fmtNat n ++ c' :: r' := by
    intro m n c c' r r' h
    cases e : fmtNat m with
    | nil => exact fmtNat_ne_nil m e
    | cons x t =>
      have hd := fmtNat_digits m x (by rw [e]; exact List.mem_cons_self)
      rw [e, List.cons_append, List.cons_append] at h
      injection h with h1 h2
      rw [h1] at hd
      revert hd
      decide
  cases i with
  | ofNat m =>
    cases j with
    | ofNat n =>
      obtain ⟨e1, e2⟩ := digits_read (fmtNat_digits m) (fmtNat_digits n) hc hc' h
      exact ⟨by rw [nat_inj e1], e2⟩
    | negSucc n => exact (mix h).elim
  | negSucc m =>
    cases j with
    | ofNat n => exact (mix h.symm).elim
    | negSucc n =>
      have h : 45 :: (fmtNat (m + 1) ++ c :: r) = 45 :: (fmtNat (n + 1) ++ c' :: r') := h
      injection h with _ h
      obtain ⟨e1, e2⟩ := digits_read (fmtNat_digits _) (fmtNat_digits _) hc hc' h
      have := nat_inj e1
      exact ⟨by rw [show m = n by omega], e2⟩

/-- **C93.** The name of an image tells `-dim`, `-nx`, `-ny`, `-nz` and the slice. -/
theorem mrName_injective {dim nx ny nz z dim' nx' ny' nz' z' : Int}
    (h : mrName dim nx ny nz z = mrName dim' nx' ny' nz' z') : dim = dim' ∧ nx = nx' ∧ ny = ny' ∧ nz = nz' ∧ z = z' := by
  have dash : ascii "-" = [45] := by decide
  have dot : ascii ".png" = 46 :: ascii "png" := by decide
  unfold mrName at h
  rw [dash, dot] at h
  simp only [List.append_assoc, List.cons_append, List.nil_append] at h
  have h := List.append_cancel_left h
  have n45 : isDigit 45 = false := by decide
  have n46 : isDigit 46 = false := by decide
  obtain ⟨e1, h⟩ := fmtInt_read n45 n45 h
  injection h with _ h
  obtain ⟨e2, h⟩ := fmtInt_read n45 n45 h
  injection h with _ h
  obtain ⟨e3, h⟩ := fmtInt_read n45 n45 h
  injection h with _ h
  obtain ⟨e4, h⟩ := fmtInt_read n45 n45 h
  injection h with _ h
  obtain ⟨e5, h⟩ := fmtInt_read n46 n46 h
  exact ⟨e1, e2, e3, e4, e5⟩

section
variable {F : Type} [GoFloat F] {lib : Lib F} {png : Image → Bytes} {d d' : Disk} {args : List Bytes} {fl : MrFlags} {e : Exit}

/-- **C93.** However it ends, only files named like an image of a slice are changed. -/
theorem mr_touches (hfl : mrFlags args = some fl) (h : MrProc lib png d args d' e) {n : Bytes}
    (hn : ∀ z, n ≠ mrName fl.dim fl.nx fl.ny fl.nz z) : d' n = d n := by
  cases h with
  | usage hp => rfl
  | noStl h hs => rfl
  | unreadable h hs hn hl => rfl
  | refused h hs hn hl hr => rfl
  | zero h hs hn hl hr => rfl
  | cut h hs _ hl hr hc hu =>
    rw [hfl] at h
    injection h with h
    subst h
    exact hu n hn
  | done h hs _ hl hr hc hd =>
    rw [hfl] at h
    injection h with h
    subst h
    cases hd with
    | ok hm hi hu => exact hu n fun z _ => hn z
    | failed hu => exact hu n hn

/-- **C93.** Without `-stl`, or if its first file cannot be read or not be divided as asked, nothing is changed and the
    program does not report success. -/
theorem mr_refused (hfl : mrFlags args = some fl)
    (hno : fl.stl = [] ∨ ∀ names n c base, Pieces 44 fl.stl (n :: names) → d n = some c → lib.load c = some base →
      ¬ ∃ L, layout (lib.bbox base) (boxScale (lib.bbox base)) fl.dim fl.nx fl.ny fl.nz = .ok L)
    (h : MrProc lib png d args d' e) : d' = d ∧ e ≠ .done := by
  have key : ∀ {n ns base L}, fl.stl ≠ [] → split 44 fl.stl = n :: ns → (d n).bind lib.load = some base →
      layout (lib.bbox base) (boxScale (lib.bbox base)) fl.dim fl.nx fl.ny fl.nz = .ok L → False := by
    intro n ns base L h0 h1 h2 h3
    rcases hno with hno | hno
    · exact h0 hno
    · cases hd : d n with
      | none => rw [hd] at h2; cases h2
      | some c =>
        rw [hd] at h2
        exact hno ns n c base (by rw [← h1]; exact split_pieces _ _) hd h2 ⟨L, h3⟩
  cases h with
  | usage hp => unfold mrFlags at hfl; rw [hp] at hfl; cases hfl
  | noStl h hs => exact ⟨rfl, nofun⟩
  | unreadable h hs hn hl => exact ⟨rfl, nofun⟩
  | refused h hs hn hl hr => exact ⟨rfl, nofun⟩
  | zero h hs hn hl hr => exact ⟨rfl, nofun⟩
  | cut h hs h1 h2 h3 hc hu => rw [hfl] at h; injection h with h; subst h; exact (key hs h1 h2 h3).elim
  | done h hs h1 h2 h3 hc hd => rw [hfl] at h; injection h with h; subst h; exact (key hs h1 h2 h3).elim

/-- **C93.** If the program reports success, all files of `-stl` could be read and the first be divided. -/
theorem mr_done (hfl : mrFlags args = some fl) (h : MrProc lib png d args d' .done) :
    ∃ names base cuts L ok, Pieces 44 fl.stl names ∧ FilesHold lib.load d names (base :: cuts) ∧
      layout (lib.bbox base) (boxScale (lib.bbox base)) fl.dim fl.nx fl.ny fl.nz = .ok L ∧
      MrDone png d fl (mrJobs lib L fl.nx fl.ny fl.nz base cuts) ok d' := by
  generalize he : Exit.done = e at h
  cases h with
  | usage hp => unfold mrFlags at hfl; rw [hp] at hfl; cases hfl
  | noStl h hs => cases he
  | unreadable h hs hn hl => cases he
  | refused h hs hn hl hr => cases he
  | zero h hs hn hl hr => cases he
  | cut h hs h1 h2 h3 hc hu => cases he
  | @done fl' n ns base cuts L ok d' h hs h1 h2 h3 hc hd =>
    rw [hfl] at h
    injection h with h
    subst h
    refine ⟨n :: ns, base, cuts, L, ok, by rw [← h1]; exact split_pieces _ _, loadSTL_iff.mp ?_, h3, hd⟩
    unfold loadSTL
    rw [h2, hc]

/-! ## The images -/

/-- The voxels of a slice. -/
theorem mrGroup_mem {jobs : List (BvInfo F)} {ess : List (List (Int × VoxelInfo))} (hf : List.Forall₂ MrEmitRun jobs ess)
    (ha : ∀ job ∈ jobs, job.bv.ColorVoxels = none ∧ ¬ zeroDim job.bv) (z : Int) (v : VoxelInfo) :
    v ∈ mrGroup z ess.flatten ↔ ∃ job ∈ jobs,
      v.Base = job.base ∧ 0 ≤ v.X ∧ 0 ≤ v.Y ∧ 0 ≤ z ∧ z < job.bv.NZ ∧ Filled job.bv job.mesh z v.Y v.X := by
  have h1 : v ∈ mrGroup z ess.flatten ↔ ∃ es ∈ ess, (z, v) ∈ es := by
    unfold mrGroup
    simp only [List.mem_map, List.mem_filter, List.mem_flatten, decide_eq_true_eq]
    constructor
    · rintro ⟨⟨z', v'⟩, ⟨⟨es, he, hm⟩, hz⟩, rfl⟩
      dsimp only at hz
      subst hz
      exact ⟨es, he, hm⟩
    · rintro ⟨es, he, hm⟩
      exact ⟨(z, v), ⟨⟨es, he, hm⟩, rfl⟩, rfl⟩
  rw [h1]
  clear h1
  induction hf with
  | nil => simp
  | @cons job es js ess' hj _ ih =>
    have ih := ih (fun a hm => ha a (List.mem_cons_of_mem _ hm))
    have hjob := mrEmit_exact job (ha job List.mem_cons_self).1 (ha job List.mem_cons_self).2 es hj z v
    simp only [List.mem_cons, exists_eq_or_imp]
    exact or_congr hjob ih

/-- A cell of slice `z` is filled by some tile of some file. -/
def SliceHit (lib : Lib F) (L : Layout F) (fl : MrFlags) (base : List (Tri (Vec F))) (files : List (List (Tri (Vec F)))) (z : Int) : Prop :=
  0 ≤ z ∧ z < L.dimZ ∧ ∃ t, InDims fl.nx fl.ny fl.nz t ∧ ∃ ts ∈ files, ∃ x y, 0 ≤ x ∧ 0 ≤ y ∧
    Filled (tileModel L (lib.bbox base) t) (lib.mesh ts) z y x

theorem group_ne_iff {L : Layout F} {base : List (Tri (Vec F))} {cuts : List (List (Tri (Vec F)))}
    (hL : layout (lib.bbox base) (boxScale (lib.bbox base)) fl.dim fl.nx fl.ny fl.nz = .ok L)
    {ess : List (List (Int × VoxelInfo))} (hm : List.Forall₂ MrEmitRun (mrJobs lib L fl.nx fl.ny fl.nz base cuts) ess) (z : Int) :
    mrGroup z ess.flatten ≠ [] ↔ SliceHit lib L fl base (base :: cuts) z := by
  obtain ⟨_, _, _, hx', hy', hz', _⟩ := layout_ok hL
  have hall : ∀ job ∈ mrJobs lib L fl.nx fl.ny fl.nz base cuts, job.bv.ColorVoxels = none ∧ ¬ zeroDim job.bv := by
    intro job hj
    refine ⟨svxJobs_color L _ _ _ _ _ job hj, ?_⟩
    obtain ⟨t, _, rfl | ⟨c, _, rfl⟩⟩ := (mem_svxJobs _ _ _ _ _ _ _ _).mp hj
    · rintro (e | e | e)
      · exact hx' e
      · exact hy' e
      · exact hz' e
    · rintro (e | e | e)
      · exact hx' e
      · exact hy' e
      · exact hz' e
  constructor
  · intro hne
    obtain ⟨v, vs', hv⟩ := List.exists_cons_of_ne_nil hne
    obtain ⟨job, hj, _, d1, d2, d3, d4, d5⟩ := (mrGroup_mem hm hall z v).mp (by rw [hv]; exact List.mem_cons_self)
    obtain ⟨t, ht, rfl | ⟨c, hc, rfl⟩⟩ := (mem_svxJobs _ _ _ _ _ _ _ _).mp hj
    · exact ⟨d3, d4, t, ht, base, List.mem_cons_self, v.X, v.Y, d1, d2, d5⟩
    · obtain ⟨ts, hts, rfl⟩ := List.mem_map.mp hc
      exact ⟨d3, d4, t, ht, ts, List.mem_cons_of_mem _ hts, v.X, v.Y, d1, d2, d5⟩
  · rintro ⟨h0, h1, t, ht, ts, hts, x, y, hx, hy, hf⟩ hnil
    have key : ∀ b job, job ∈ mrJobs lib L fl.nx fl.ny fl.nz base cuts → b = job.base → z < job.bv.NZ →
        Filled job.bv job.mesh z y x → False := by
      intro b job hj hb hz hfi
      have := (mrGroup_mem hm hall z ⟨x, y, b⟩).mpr ⟨job, hj, hb, hx, hy, h0, hz, hfi⟩
      rw [hnil] at this
      cases this
    rcases List.mem_cons.mp hts with rfl | hc
    · exact key true _ ((mem_svxJobs _ _ _ _ _ _ _ _).mpr ⟨t, ht, .inl rfl⟩) rfl h1 hf
    · exact key false _ ((mem_svxJobs _ _ _ _ _ _ _ _).mpr ⟨t, ht, .inr ⟨_, List.mem_map_of_mem hc, rfl⟩⟩) rfl h1 hf

/-- **C93.** A run that could write all its images: a slice that some file hits has a file of its own showing the tiles drawn over
    one another; of a slice that no file hits the image is not touched (an image of an earlier run stays). -/
theorem mr_files {L : Layout F} {base : List (Tri (Vec F))} {cuts : List (List (Tri (Vec F)))}
    (hL : layout (lib.bbox base) (boxScale (lib.bbox base)) fl.dim fl.nx fl.ny fl.nz = .ok L)
    (h : MrDone png d fl (mrJobs lib L fl.nx fl.ny fl.nz base cuts) true d') (z : Int) :
    (SliceHit lib L fl base (base :: cuts) z → ∃ img, d' (mrName fl.dim fl.nx fl.ny fl.nz z) = some (png img) ∧
      Shows img fl.dim fl.dim
        (fun x y => (0 ≤ x ∧ 0 ≤ y) ∧
          (∃ t, InDims fl.nx fl.ny fl.nz t ∧ Filled (tileModel L (lib.bbox base) t) (lib.mesh base) z y x) ∧
          ¬ ∃ t, InDims fl.nx fl.ny fl.nz t ∧ ∃ ts ∈ cuts, Filled (tileModel L (lib.bbox base) t) (lib.mesh ts) z y x)
        (fun i j => (i, j))) ∧
    (¬ SliceHit lib L fl base (base :: cuts) z →
      d' (mrName fl.dim fl.nx fl.ny fl.nz z) = d (mrName fl.dim fl.nx fl.ny fl.nz z)) := by
  generalize hk : true = ok at h
  cases h with
  | failed hu => cases hk
  | @ok ess img _ hm hi hu =>
    constructor
    · intro hhit
      have hne := (group_ne_iff hL hm z).mpr hhit
      obtain ⟨⟨vs, hp, hv⟩, hd⟩ := hi z hne
      refine ⟨img z, hd, ?_⟩
      have hvs : vs ≠ [] := by
        rintro rfl
        exact hne (List.Perm.nil_eq hp).symm
      have hs := mr_superimposes _ _ _ _ _ _ L hL _ _ z (img z) ⟨ess, hm, vs, hvs, hp, hv⟩
      obtain ⟨a1, a2, a3⟩ := hs
      refine ⟨a1, a2, ?_⟩
      intro i j
      rw [a3]
      obtain ⟨z0, z1, _⟩ := hhit
      have hex : ∀ P : Mesh F → Prop, (∃ c ∈ cuts.map (fun ts => (lib.mesh ts, lib.bbox ts)), P c.1) ↔ ∃ ts ∈ cuts, P (lib.mesh ts) := by
        intro P
        constructor
        · rintro ⟨c, hc, hP⟩
          obtain ⟨ts, hts, rfl⟩ := List.mem_map.mp hc
          exact ⟨ts, hts, hP⟩
        · rintro ⟨ts, hts, hP⟩
          exact ⟨_, List.mem_map_of_mem hts, hP⟩
      simp only [z0, z1, and_true]
      have := fun t => hex fun m => Filled (tileModel L (lib.bbox base) t) m z j i
      simp only [this]
    · intro hno
      refine hu _ ?_
      intro z' hz' hn
      obtain ⟨_, _, _, _, rfl⟩ := mrName_injective hn
      exact hno ((group_ne_iff hL hm z).mp hz')

/-- **C93.** If all files can be read and the first be divided, a run is possible that writes all its images. -/
theorem mr_possible (hfl : mrFlags args = some fl) (hs : fl.stl ≠ []) {names : List Bytes} {base : List (Tri (Vec F))}
    {cuts : List (List (Tri (Vec F)))} {L : Layout F} (hp : Pieces 44 fl.stl names)
    (hf : FilesHold lib.load d names (base :: cuts))
    (hL : layout (lib.bbox base) (boxScale (lib.bbox base)) fl.dim fl.nx fl.ny fl.nz = .ok L) :
    ∃ d', MrProc lib png d args d' .done ∧ MrDone png d fl (mrJobs lib L fl.nx fl.ny fl.nz base cuts) true d' := by
  have hemit : ∀ job : BvInfo F, ∃ es, MrEmitRun job es := by
    intro job
    obtain ⟨out, ho⟩ := (voxelize_defined job.bv job.mesh).1
    cases out with
    | ok b' => exact ⟨_, .ok b', ho, _, List.Perm.refl _, rfl⟩
    | err => exact ⟨[], .err, ho, rfl⟩
    | panic => exact ⟨[], .panic, ho, rfl⟩
  choose em hem using hemit
  have hfor : ∀ jobs : List (BvInfo F), List.Forall₂ MrEmitRun jobs (jobs.map em) := by
    intro jobs
    induction jobs with
    | nil => exact .nil
    | cons j js ih => exact .cons (hem j) ih
  have hm := hfor (mrJobs lib L fl.nx fl.ny fl.nz base cuts)
  generalize (mrJobs lib L fl.nx fl.ny fl.nz base cuts).map em = ess at hm
  classical
  let img : Int → Image := fun z => paint 0 (Image.blank fl.dim fl.dim) (collectPixels (fun v => (v.X, v.Y)) (mrGroup z ess.flatten))
  let d' : Disk := fun n =>
    if h : ∃ z, mrGroup z ess.flatten ≠ [] ∧ n = mrName fl.dim fl.nx fl.ny fl.nz z then some (png (img h.choose)) else d n
  have hdone : MrDone png d fl (mrJobs lib L fl.nx fl.ny fl.nz base cuts) true d' := by
    refine .ok (img := img) hm ?_ ?_
    · intro z hz
      refine ⟨⟨_, List.Perm.refl _, _, List.Perm.refl _, rfl⟩, ?_⟩
      have h : ∃ z', mrGroup z' ess.flatten ≠ [] ∧ mrName fl.dim fl.nx fl.ny fl.nz z = mrName fl.dim fl.nx fl.ny fl.nz z' := ⟨z, hz, rfl⟩
      have e : z = h.choose := (mrName_injective h.choose_spec.2).2.2.2.2
      dsimp only [d']
      rw [dif_pos h, ← e]
    · intro n hn
      dsimp only [d']
      exact dif_neg fun ⟨z, hz, e⟩ => hn z hz e
  refine ⟨d', ?_, hdone⟩
  have es : split 44 fl.stl = names := (split_iff _ _ _).mpr hp
  cases names with
  | nil => cases hf
  | cons m ms =>
    cases hf with
    | cons h1 h2 =>
      obtain ⟨c, hc, hlc⟩ := h1
      exact MrProc.done hfl hs es (by rw [hc]; exact hlc) hL (loadSTL_iff.mpr h2) hdone

end

/-- **C93.** With a single tile in exact arithmetic: slice `z` has a file showing the cells of the undiced model that are filled by the
    base and by no cut. -/
theorem mr_single_files {lib : Lib ℚ} {png : Image → Bytes} {d d' : Disk} {fl : MrFlags} {L : Layout ℚ} {base : List (Tri (Vec ℚ))}
    {cuts : List (List (Tri (Vec ℚ)))} (h1 : fl.nx = 1 ∧ fl.ny = 1 ∧ fl.nz = 1)
    (hL : layout (lib.bbox base) (boxScale (lib.bbox base)) fl.dim fl.nx fl.ny fl.nz = .ok L)
    (hs : 0 < boxScale (lib.bbox base)) (hd : 0 < fl.dim) (px : 0 < L.dimX) (py : 0 < L.dimY)
    (h : MrDone png d fl (mrJobs lib L fl.nx fl.ny fl.nz base cuts) true d') (z : Int)
    (hz : SliceHit lib L fl base (base :: cuts) z) :
    ∃ img, d' (mrName fl.dim 1 1 1 z) = some (png img) ∧
      Shows img fl.dim fl.dim (SliceSolid (wholeModel L (lib.bbox base) 1 1 1) (lib.mesh base) (cuts.map lib.mesh) z)
        (fun i j => (i, j)) := by
  obtain ⟨e1, e2, e3⟩ := h1
  obtain ⟨dim, nx, ny, nz, stl⟩ := fl
  dsimp only at *
  subst e1 e2 e3
  generalize hk : true = ok at h
  cases h with
  | failed hu => cases hk
  | @ok ess img _ hm hi hu =>
    have hne := (group_ne_iff hL hm z).mpr hz
    obtain ⟨⟨vs, hp, hv⟩, hdz⟩ := hi z hne
    refine ⟨img z, hdz, ?_⟩
    have hvs : vs ≠ [] := by
      rintro rfl
      exact hne (List.Perm.nil_eq hp).symm
    have := mr_single_tile _ _ _ L hL hs hd px py _ _ z ⟨hz.1, hz.2.1⟩ (img z) ⟨ess, hm, vs, hvs, hp, hv⟩
    rw [List.map_map] at this
    exact this

/-- A run: two files with one triangle each; slice 0 gets a file. -/
theorem exMr_runs : ∃ (fl : MrFlags) (d d' : Disk) (L : Layout ℚ) (base : List (Tri (Vec ℚ))) (cuts : List (List (Tri (Vec ℚ)))),
    mrFlags exArgs = some fl ∧ (fl.nx = 1 ∧ fl.ny = 1 ∧ fl.nz = 1) ∧ MrProc exLib (fun _ => [1]) d exArgs d' .done ∧
    MrDone (fun _ => [1]) d fl (mrJobs exLib L fl.nx fl.ny fl.nz base cuts) true d' ∧
    layout (exLib.bbox base) (boxScale (exLib.bbox base)) fl.dim fl.nx fl.ny fl.nz = .ok L ∧
    0 < boxScale (exLib.bbox base) ∧ 0 < fl.dim ∧ 0 < L.dimX ∧ 0 < L.dimY ∧
    SliceHit exLib L fl base (base :: cuts) 0 ∧ d' (mrName 2 1 1 1 0) = some [1] ∧ ¬ SliceHit exLib L fl base (base :: cuts) 7 := by
  let fl : MrFlags := ⟨2, 1, 1, 1, ascii "a.stl,b.stl"⟩
  have hfl : mrFlags exArgs = some fl := by
    unfold mrFlags
    have : Flag.parse mrKind (fun _ => false) exArgs = .ok [(ascii "dim", ascii "2"), (ascii "nx", ascii "1"), (ascii "ny", ascii "1"),
      (ascii "stl", ascii "a.stl,b.stl")] [] := by rfl
    rw [this]
    rfl
  have hl : layout (⟨⟨0, 0, 0⟩, ⟨2, 2, 2⟩⟩ : Box ℚ) (boxScale (⟨⟨0, 0, 0⟩, ⟨2, 2, 2⟩⟩ : Box ℚ)) 2 1 1 1 = .ok ⟨1, 1, 2, 2, 2, 2, 2, 2, 2⟩ := by
    decide +kernel
  let file : List (Tri (Vec ℚ)) := [⟨⟨0, 0, 0⟩, ⟨2, 0, 2⟩, ⟨0, 2, 2⟩⟩]
  obtain ⟨d', h1, h2⟩ := mr_possible (lib := exLib) (png := fun _ => [1]) (d := fun _ => some []) (base := file) (cuts := [file])
    (names := [ascii "a.stl", ascii "b.stl"]) hfl (by decide) ((split_iff _ _ _).mp (by decide))
    (loadSTL_iff.mp rfl) hl
  have hhit : SliceHit exLib ⟨1, 1, 2, 2, 2, 2, 2, 2, 2⟩ fl file [file, file] 0 := by
    refine ⟨by decide, by decide, ⟨0, 0, 0⟩, by unfold InDims; decide, file, List.mem_cons_self, 0, 0, by decide, by decide, ?_⟩
    refine ⟨by decide, .inl ⟨0, ?_⟩⟩
    refine ⟨by decide, by decide, by decide, ?_⟩
    have : ((intersectTriZPlane 0 ((exLib.mesh file).heap 0)
        (sliceHeight (tileModel ⟨1, 1, 2, 2, 2, 2, 2, 2, 2⟩ (exLib.bbox file) ⟨0, 0, 0⟩) 0)).any fun q =>
        decide ((0, 0) ∈ pairPoints (tileModel ⟨1, 1, 2, 2, 2, 2, 2, 2, 2⟩ (exLib.bbox file) ⟨0, 0, 0⟩)
          (VoxelsPerMM (tileModel ⟨1, 1, 2, 2, 2, 2, 2, 2, 2⟩ (exLib.bbox file) ⟨0, 0, 0⟩)) q)) = true := by
      decide +kernel
    generalize intersectTriZPlane 0 ((exLib.mesh file).heap 0) _ = o at this
    cases o with
    | none => cases this
    | some q => exact ⟨q, rfl, of_decide_eq_true this⟩
  obtain ⟨img, hi, _⟩ := (mr_files (lib := exLib) (fl := fl) (base := file) (cuts := [file]) hl h2 0).1 hhit
  exact ⟨fl, _, d', _, file, [file], hfl, ⟨rfl, rfl, rfl⟩, h1, h2, hl, by decide +kernel, by decide, by decide, by decide, hhit, hi,
    fun h => absurd h.2.1 (by decide)⟩

/-- `mr_touches`, `mr_done` and `mr_single_files` on this run. -/
example : ∃ (d d' : Disk) (L : Layout ℚ) (base : List (Tri (Vec ℚ))) (cuts : List (List (Tri (Vec ℚ)))) (img : Image),
    MrProc exLib (fun _ => [1]) d exArgs d' .done ∧ d' (ascii "a.stl") = d (ascii "a.stl") ∧
    (∃ names base cuts, FilesHold exLib.load d names (base :: cuts)) ∧
    Shows img 2 2 (SliceSolid (wholeModel L (exLib.bbox base) 1 1 1) (exLib.mesh base) (cuts.map exLib.mesh) 0) (fun i j => (i, j)) := by
  obtain ⟨fl, d, d', L, base, cuts, hfl, h1, hp, hd, hL, hs, h0, px, py, hz, -, -⟩ := exMr_runs
  obtain ⟨names, base', cuts', -, -, -, hfh, -⟩ := mr_done hfl hp
  have e : fl.dim = 2 := by
    have := hfl
    have h2 : mrFlags exArgs = some ⟨2, 1, 1, 1, ascii "a.stl,b.stl"⟩ := by
      unfold mrFlags
      have : Flag.parse mrKind (fun _ => false) exArgs = .ok [(ascii "dim", ascii "2"), (ascii "nx", ascii "1"), (ascii "ny", ascii "1"),
        (ascii "stl", ascii "a.stl,b.stl")] [] := by rfl
      rw [this]
      rfl
    rw [h2] at this
    injection this with this
    rw [← this]
  obtain ⟨img, -, hsh⟩ := mr_single_files h1 hL hs h0 px py hd 0 hz
  rw [e] at hsh
  refine ⟨d, d', L, base, cuts, img, hp, mr_touches hfl hp (fun z hn => ?_), ⟨names, base', cuts', hfh⟩, hsh⟩
  have := congrArg List.head? hn
  unfold mrName at this
  simp only [List.append_assoc] at this
  rw [List.head?_append] at this
  exact absurd (show (some 97 : Option UInt8) = some 111 from this) (by decide)

/-- `mr_refused` without the argument `-stl`: nothing is written. -/
example (d d' : Disk) (e : Exit) (h : MrProc exLib (fun _ => [1]) d [ascii "-dim", ascii "2"] d' e) : d' = d ∧ e ≠ .done :=
  mr_refused (fl := ⟨2, 8, 8, 1, []⟩) (by
    unfold mrFlags
    have : Flag.parse mrKind (fun _ => false) [ascii "-dim", ascii "2"] = .ok [(ascii "dim", ascii "2")] [] := by rfl
    rw [this]
    rfl) (.inl rfl) h

example := mrName_injective (dim := 8192) (nx := 8) (ny := 8) (nz := 1) (z := 0) rfl

end Mr
end StlDice
