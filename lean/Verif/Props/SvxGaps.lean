import Verif.Props.SvxNetRuns

/-! # C137: lost slices are gaps in the model -/

namespace StlDice
namespace Net
open Spec BinVOX Flag Cmd

section
variable {F : Type} [GoFloat F] {codec : Codec F} {unzip : Bytes → Option (List (ZFile F))} {unpng : Bytes → Option Pic}

/-- What svx2stl makes of an archive with the manifest of a job, the black images and, in any order, images of some of its slices. -/
theorem archive_read_gaps (hfa : Faithful codec unzip unpng) {d' : Disk} {name svx : Bytes} (hfile : d' name = some svx) {r : SvxReq F}
    {img : Nat → Image} {present : Nat → Bool} {rest : List (Bytes × Content F)} {solid : Nat → Int → Int → Prop}
    (hro : r.OutPrefix = ascii "out") (hpos : 0 < r.L.dimZ) (hsvx : svx = codec.zip ((ascii "manifest.xml", .manifest r) :: rest))
    (hperm : rest.Perm ((sliceName r.Dim r.NX r.NY r.NZ 0, .blank (r.Dim + 2)) ::
      (sliceName r.Dim r.NX r.NY r.NZ (r.L.dimZ + 1), .blank (r.Dim + 2)) ::
      ((List.range r.L.dimZ.toNat).filter present).map fun z : Nat => (sliceName r.Dim r.NX r.NY r.NZ (z + 1), .raw (codec.png (img z)))))
    (hshow : ∀ z < r.L.dimZ.toNat, present z = true →
      Shows (img z) (r.Dim + 2) (r.Dim + 2) (solid z) (fun i j => (i - 1, r.Dim - j)))
    (hin : ∀ z x y, solid z x y → 0 ≤ x ∧ x ≤ r.Dim ∧ 0 ≤ y ∧ y ≤ r.Dim) :
    (r.L.dimZ ≤ 9998 → ∃ b, svxOpen unzip d' name = .ok b ∧
      ∀ k : Key, Present b k ↔ ∃ (z : Nat) (x y : Int), z < r.L.dimZ.toNat ∧ present z = true ∧ solid z x y ∧
        k = ⟨x + 1, r.Dim - y, z + 1⟩) ∧
    (9999 ≤ r.L.dimZ → svxOpen unzip d' name = .err) := by
  have hseen : unzip svx = some (((ascii "manifest.xml", Content.manifest r) :: rest).map (seen unpng)) := by
    rw [hsvx]
    apply hfa.zip
    intro n r' hm
    rcases List.mem_cons.mp hm with e | hm
    · injection e with _ e
      injection e with e
      rw [e, hro]
      exact plain_out
    have hm := hperm.mem_iff.mp hm
    rcases List.mem_cons.mp hm with e | hm
    · injection e with _ e
      cases e
    rcases List.mem_cons.mp hm with e | hm
    · injection e with _ e
      cases e
    · obtain ⟨z, _, e⟩ := List.mem_map.mp hm
      injection e with _ e
      cases e
  rw [List.map_cons] at hseen
  have hn' : ((r.L.dimZ.toNat : Nat) : Int) = r.L.dimZ := Int.toNat_of_nonneg hpos.le
  have hmem : ∀ e : ZFile F, e ∈ rest.map (seen unpng) ↔
      e = imageEntry r.Dim r.NX r.NY r.NZ 0 (Image.blank (r.Dim + 2) (r.Dim + 2)) ∨
      e = imageEntry r.Dim r.NX r.NY r.NZ (r.L.dimZ + 1) (Image.blank (r.Dim + 2) (r.Dim + 2)) ∨
      ∃ z : Nat, z < r.L.dimZ.toNat ∧ present z = true ∧ e = imageEntry r.Dim r.NX r.NY r.NZ (z + 1) (img z) := by
    intro e
    rw [(hperm.map (seen unpng)).mem_iff, List.map_cons, List.map_cons, List.mem_cons, List.mem_cons, List.map_map, List.mem_map]
    have e3 : ∀ z : Nat, z < r.L.dimZ.toNat → present z = true →
        seen (F := F) unpng (sliceName r.Dim r.NX r.NY r.NZ (z + 1), Content.raw (codec.png (img z))) =
          imageEntry r.Dim r.NX r.NY r.NZ (z + 1) (img z) := by
      intro z hz hp
      unfold seen imageEntry
      dsimp only
      rw [hfa.png, clip_shows (hshow z hz hp)]
    refine or_congr Iff.rfl (or_congr Iff.rfl ?_)
    constructor
    · rintro ⟨z, hz, rfl⟩
      obtain ⟨hz, hp⟩ := List.mem_filter.mp hz
      have hz := List.mem_range.mp hz
      exact ⟨z, hz, hp, e3 z hz hp⟩
    · rintro ⟨z, hz, hp, rfl⟩
      exact ⟨z, List.mem_filter.mpr ⟨List.mem_range.mpr hz, hp⟩, e3 z hz hp⟩
  obtain ⟨b0, hpm, hw⟩ : ∃ b0 : BinVOX F, parseManifest (seen (F := F) unpng (ascii "manifest.xml", Content.manifest r)).xml =
      some (b0, svxFmt r.Dim r.NX r.NY r.NZ) ∧ b0.ColorVoxels = none := ⟨_, grid_parse (r := r) hro, rfl⟩
  obtain ⟨g1, g2⟩ := svxRead_exact (seen (F := F) unpng (ascii "manifest.xml", Content.manifest r)) (rest.map (seen unpng)) b0
    (svxFmt r.Dim r.NX r.NY r.NZ) rfl rfl hpm (by
      intro e he
      rcases (hmem e).mp he with rfl | rfl | ⟨z, _, _, rfl⟩ <;> exact sliceName_ne_manifest _ _ _ _ _)
  have hscan : ∀ k : Int, 0 ≤ k → ∀ im : Image, sscanf (svxFmt r.Dim r.NX r.NY r.NZ) (imageEntry (F := F) r.Dim r.NX r.NY r.NZ k im).name =
      if k ≤ 9999 then some k else none := fun k hk im => sscanf_sliceName _ _ _ _ k hk
  have hopen : svxOpen unzip d' name = svxLoad (seen (F := F) unpng (ascii "manifest.xml", Content.manifest r) :: rest.map (seen unpng)) := by
    unfold svxOpen
    rw [hfile, Option.bind_some, hseen]
  rw [hopen]
  have dark : ∀ (w h : Int) (x y : Int), ¬ Spec.Bright (Image.blank w h).pic x y := by
    intro w h x y hb
    rw [bright_pic] at hb
    cases hb.2.2.2.2
  constructor
  · intro hle
    obtain ⟨m', h1, h2, h3⟩ := g2 (by
      rintro ⟨e, he, hb⟩
      rcases (hmem e).mp he with rfl | rfl | ⟨z, hz, _, rfl⟩ <;> rcases hb with h | h | h
      all_goals first | (cases h; done) | skip
      · rw [hscan _ (by omega), if_pos (by omega)] at h; cases h
      · rw [hscan _ (by omega), if_pos (by omega)] at h; cases h
      · rw [hscan _ (by omega), if_pos (by omega)] at h; cases h)
    refine ⟨_, h1, ?_⟩
    rintro ⟨X, Y, Z⟩
    rw [present_vox (b := { b0 with WhiteVoxels := some m' }) (by unfold WhiteOnly BinVOX.color; dsimp only; rw [hw]; rfl)]
    refine (h3 X Y Z).trans ?_
    constructor
    · rintro ⟨e, he, hs, pic, hpic, hb⟩
      rcases (hmem e).mp he with rfl | rfl | ⟨z, hz, hp, rfl⟩ <;> injection hpic with hpic <;> subst hpic
      · exact absurd hb (dark _ _ _ _)
      · exact absurd hb (dark _ _ _ _)
      · rw [hscan _ (by omega), if_pos (by omega)] at hs
        injection hs with hs
        rw [bright_pic] at hb
        obtain ⟨_, _, a3⟩ := hshow z hz hp
        obtain ⟨_, _, _, _, hsol⟩ := (a3 X Y).mp hb.2.2.2.2
        refine ⟨z, X - 1, r.Dim - Y, hz, hp, hsol, ?_⟩
        rw [Key.mk.injEq]
        omega
    · rintro ⟨z, x, y, hz, hp, hs, e⟩
      obtain ⟨rfl, rfl, rfl⟩ := (Key.mk.injEq _ _ _ _ _ _).mp e
      refine ⟨_, (hmem _).mpr (.inr (.inr ⟨z, hz, hp, rfl⟩)), ?_, _, rfl, ?_⟩
      · rw [hscan _ (by omega), if_pos (by omega)]
      · rw [bright_pic]
        obtain ⟨a1, a2, a3⟩ := hshow z hz hp
        obtain ⟨b1, b2, b3, b4⟩ := hin z x y hs
        rw [a1, a2]
        refine ⟨by omega, by omega, by omega, by omega, (a3 _ _).mpr ⟨by omega, by omega, by omega, by omega, ?_⟩⟩
        have e1 : x + 1 - 1 = x := by omega
        have e2 : r.Dim - (r.Dim - y) = y := by omega
        dsimp only
        rw [e1, e2]
        exact hs
  · intro hge
    apply g1
    refine ⟨_, (hmem _).mpr (.inr (.inl rfl)), .inr (.inl ?_)⟩
    rw [hscan _ (by omega), if_neg (by omega)]

end

section
variable {lib : Lib ℚ} {codec : Codec ℚ} {unzip : Bytes → Option (List (ZFile ℚ))} {unpng : Bytes → Option Pic}

/-- **C137.** A client run with the prefix `out` and one layer along z, at a master that runs one job at a time and whose agents may fail.  If it
    succeeds, svx2stl opens its file without an error, and the model in it is that of the first file of `-stl` without the others, in which whole layers
    of voxels may be missing: those of the slices that were lost. -/
theorem network_gaps (hfa : Faithful codec unzip unpng) {d d' : Disk} {args : List Bytes} {fl : ClientFlags}
    (hfl : clientFlags args = some fl)
    (h : ClientProc lib (fun _ q r => Answers lib codec Alone q r) d args d' .done)
    (hpre : fl.pre = ascii "out") (hnz : fl.nz = 1) (hd : 0 < fl.dim) (hn : 0 < fl.nx ∧ 0 < fl.ny)
    (hB : ∀ ts, Proper (lib.bbox ts)) :
    ∃ names base cuts L, ∃ present : Nat → Bool, Pieces 44 fl.stl names ∧ FilesHold lib.load d names (base :: cuts) ∧
      layout (lib.bbox base) (boxScale (lib.bbox base)) fl.dim fl.nx fl.ny 1 = .ok L ∧
      (L.dimZ ≤ 9998 → ∃ b, svxOpen unzip d' (outName (ascii "out") fl.dim fl.nx fl.ny 1) = .ok b ∧
        ∀ k : Key, Present b k ↔ ∃ (z : Nat) (x y : Int), z < L.dimZ.toNat ∧ present z = true ∧
          SliceSolid (wholeModel L (lib.bbox base) fl.nx fl.ny 1) (lib.mesh base) (cuts.map lib.mesh) z x y ∧
          k = ⟨x + 1, fl.dim - y, z + 1⟩) ∧
      (9999 ≤ L.dimZ → svxOpen unzip d' (outName (ascii "out") fl.dim fl.nx fl.ny 1) = .err) := by
  rcases client_done h with ⟨hp, _⟩ | ⟨fl', names, files, svx, h1, h2, h3, h4, h5, h6⟩
  · unfold clientFlags at hfl
    rw [hp] at hfl
    cases hfl
  rw [hfl] at h1
  injection h1 with h1
  subst h1
  cases files with
  | nil =>
    exfalso
    obtain ⟨r, _, _, _, hr, _⟩ := answer_exact (P := Alone) (fun s l h => h) h5
    obtain ⟨_, _, hf, _⟩ := newJob_ok_iff.mp hr
    cases hf
  | cons base cuts =>
    obtain ⟨r, present, img, rest, hL, hr, hsvx, hperm, hshow, _⟩ :=
      network_images (P := Alone) (fun s l h => h) h5 (base := base) (cuts := cuts) rfl hnz hd hn (hB base)
    dsimp only at hL hr hsvx hperm hshow
    obtain ⟨hs, ⟨px, py, pz⟩, mx, my, _⟩ := layout_box hL hd ⟨hn.1, hn.2, by omega⟩ (hB base)
    refine ⟨names, base, cuts, r.L, present, h3, h4, hL, ?_⟩
    rw [hnz, hpre] at h6
    have hfile : d' (outName (ascii "out") fl.dim fl.nx fl.ny 1) = some svx := by
      rw [h6]
      exact put_self _ _ _
    have hro : r.OutPrefix = ascii "out" := by rw [hr]; exact hpre
    have d1 : r.Dim = fl.dim := by rw [hr]
    have d2 : r.NX = fl.nx := by rw [hr]
    have d3 : r.NY = fl.ny := by rw [hr]
    have d4 : r.NZ = 1 := by rw [hr]
    have := archive_read_gaps hfa hfile hro pz hsvx (img := img) (present := present)
      (solid := fun z => SliceSolid (wholeModel r.L (lib.bbox base) fl.nx fl.ny 1) (lib.mesh base) (cuts.map lib.mesh) z)
      (by rw [d1, d2, d3, d4]; exact (hperm.cons _).cons _) (by rw [d1]; exact fun z hz hp => hshow z hz hp) (by
        rw [d1]
        rintro z x y ⟨x0, hfill, _⟩
        obtain ⟨f1, f2, f3⟩ := filled_row hfill
        have f1' : x < fl.nx * r.L.dimX := f1
        have f3' : y < fl.ny * r.L.dimY := f3
        exact ⟨x0, by omega, f2, by omega⟩)
    rw [d1] at this
    exact this

end

/-! ## Every gap can come about -/

section
variable {F : Type} [GoFloat F] {lib : Lib F} {codec : Codec F} {q : Request F} {r : SvxReq F} {present : Nat → Bool} {img : Nat → Image}

/-- The master has finished the first `k` slices of its only job and lost those that are not in `present`. -/
structure Gapped (lib : Lib F) (codec : Codec F) (q : Request F) (r : SvxReq F) (present : Nat → Bool) (img : Nat → Image) (k : Nat)
    (s : MState F) (J : JobState F) : Prop where
  reach : MReach (fun s l => Alone s l ∧ Serving lib codec (fun _ => q) s l) s
  job : s.job 0 = some J
  others : ∀ i, i ≠ 0 → s.job i = none
  req : J.req = r
  phase : J.phase = .running
  cur : s.cur = some 0
  final : s.final 0 = none
  done : ∀ z < k, J.task z = if present z then .done (codec.png (img z)) else .dropped
  rest : ∀ z, k ≤ z → J.task z = .waiting

theorem quiet_alone {s : MState F} {l : MLabel F} (h1 : ∀ i r, l ≠ .start i r) (h3 : ∀ i z png, l ≠ .sliceOk i z png) :
    Alone s l ∧ Serving lib codec (fun _ => q) s l :=
  ⟨fun i r h => absurd h (h1 i r), fun i r h => absurd h (h1 i r), fun i z png h => absurd h (h3 i z png)⟩

theorem gapped_zero (hr : newJob lib q = .ok r) : ∃ s J, Gapped lib codec q r present img 0 s J := by
  have h0 : MReach (fun s l => Alone s l ∧ Serving lib codec (fun _ => q) s l) (MState.init (F := F)) := .init
  have h2 := MReach.step h0 (by
    refine ⟨?_, ?_, fun _ _ _ e => by injection e⟩
    · intro i r' _ j J h
      cases h
    · intro i r' h
      injection h with _ h
      exact h ▸ hr) (MStep.start _ 0 r rfl)
  have h3 := MReach.step h2 (quiet_alone (by intros; nofun) (by intros; nofun))
    (MStep.manifest _ 0 0 ⟨r, .opened, fun _ => .waiting⟩ (by dsimp only; rw [upd_same]) rfl rfl)
  have h4 := MReach.step h3 (quiet_alone (by intros; nofun) (by intros; nofun))
    (MStep.blanks _ 0 0 ⟨r, .manifest, fun _ => .waiting⟩ (by dsimp only; rw [upd_same]) rfl rfl)
  refine ⟨_, ⟨r, .running, fun _ => .waiting⟩, h4, by dsimp only; rw [upd_same], ?_, rfl, rfl, rfl, rfl, fun z hz => by omega, fun z _ => rfl⟩
  intro i hi
  dsimp only
  rw [upd_ne _ _ _ _ hi, upd_ne _ _ _ _ hi, upd_ne _ _ _ _ hi]
  rfl

theorem gapped_succ {k : Nat} {s : MState F} {J : JobState F} (h : Gapped lib codec q r present img k s J) (hk : k < r.L.dimZ.toNat)
    (hi : present k = true → Agent lib q k (some (img k))) : ∃ s' J', Gapped lib codec q r present img (k + 1) s' J' := by
  have hn : k < J.n := by unfold JobState.n; rw [h.req]; exact hk
  have h0 := MReach.step h.reach (quiet_alone (by intros; nofun) (by intros; nofun)) (MStep.register s [])
  have h1 := MReach.step h0 (quiet_alone (by intros; nofun) (by intros; nofun))
    (MStep.take _ 0 k [] J h.job h.phase hn (h.rest k (Nat.le_refl k)) (upd_same s.idle [] true))
  cases hp : present k with
  | true =>
    have h2 := MReach.step h1 (by
      refine ⟨fun _ _ e => by injection e, fun _ _ e => by injection e, ?_⟩
      intro i z png e
      injection e with _ e1 e2
      exact ⟨img k, e1 ▸ hi hp, e2.symm⟩)
      (MStep.sliceOk _ 0 k [] (codec.png (img k)) (J.setTask k (.busy [])) (by dsimp only; rw [upd_same])
        (by unfold JobState.setTask; dsimp only; rw [upd_same]))
    have h3 := MReach.step h2 (quiet_alone (by intros; nofun) (by intros; nofun))
      (MStep.write _ 0 k 0 (codec.png (img k)) ((J.setTask k (.busy [])).setTask k (.writing (codec.png (img k)))) (by dsimp only; rw [upd_same])
        (by unfold JobState.setTask; dsimp only; rw [upd_same]) h.cur)
    refine ⟨_, ((J.setTask k (.busy [])).setTask k (.writing (codec.png (img k)))).setTask k (.done (codec.png (img k))), h3,
      by dsimp only; rw [upd_same], ?_, h.req, h.phase, h.cur, h.final, ?_, ?_⟩
    · intro i hi
      dsimp only
      rw [upd_ne _ _ _ _ hi, upd_ne _ _ _ _ hi, upd_ne _ _ _ _ hi]
      exact h.others i hi
    · intro z hz
      by_cases e : z = k
      · subst e
        rw [hp, if_pos rfl]
        exact upd_same _ _ _
      · rw [← h.done z (by omega)]
        unfold JobState.setTask
        dsimp only
        rw [upd_ne _ _ _ _ e, upd_ne _ _ _ _ e, upd_ne _ _ _ _ e]
    · intro z hz
      have e : z ≠ k := by omega
      unfold JobState.setTask
      dsimp only
      rw [upd_ne _ _ _ _ e, upd_ne _ _ _ _ e, upd_ne _ _ _ _ e]
      exact h.rest z (by omega)
  | false =>
    have h2 := MReach.step h1 (quiet_alone (by intros; nofun) (by intros; nofun))
      (MStep.sliceErr _ 0 k [] (J.setTask k (.busy [])) (by dsimp only; rw [upd_same])
        (by unfold JobState.setTask; dsimp only; rw [upd_same]))
    refine ⟨_, (J.setTask k (.busy [])).setTask k .dropped, h2, by dsimp only; rw [upd_same], ?_, h.req, h.phase, h.cur, h.final, ?_, ?_⟩
    · intro i hi
      dsimp only
      rw [upd_ne _ _ _ _ hi, upd_ne _ _ _ _ hi]
      exact h.others i hi
    · intro z hz
      by_cases e : z = k
      · subst e
        rw [hp, if_neg (by decide)]
        exact upd_same _ _ _
      · rw [← h.done z (by omega)]
        unfold JobState.setTask
        dsimp only
        rw [upd_ne _ _ _ _ e, upd_ne _ _ _ _ e]
    · intro z hz
      have e : z ≠ k := by omega
      unfold JobState.setTask
      dsimp only
      rw [upd_ne _ _ _ _ e, upd_ne _ _ _ _ e]
      exact h.rest z (by omega)

/-- **C137.** Whatever slices are to be lost: a request the master accepts, of which agents can make the others, can be answered with an archive in
    which exactly these are missing. -/
theorem gaps_possible (hr : newJob lib q = .ok r) (hag : ∀ z < r.L.dimZ.toNat, present z = true → Agent lib q z (some (img z))) :
    ∃ svx rest, Answers lib codec Alone q (some svx) ∧
      svx = codec.zip ((ascii "manifest.xml", .manifest r) ::
        (sliceName q.Dim q.NX q.NY q.NZ 0, .blank (q.Dim + 2)) ::
        (sliceName q.Dim q.NX q.NY q.NZ (r.L.dimZ + 1), .blank (q.Dim + 2)) :: rest) ∧
      rest.Perm (((List.range r.L.dimZ.toNat).filter present).map fun z : Nat =>
        (sliceName q.Dim q.NX q.NY q.NZ (z + 1), .raw (codec.png (img z)))) := by
  have half : ∀ k, k ≤ r.L.dimZ.toNat → ∃ s J, Gapped lib codec q r present img k s J := by
    intro k
    induction k with
    | zero => exact fun _ => gapped_zero hr
    | succ k ih =>
      intro hk
      obtain ⟨s, J, h⟩ := ih (by omega)
      exact gapped_succ h (by omega) (hag k (by omega))
  obtain ⟨s, J, h⟩ := half _ (Nat.le_refl _)
  have hJn : J.n = r.L.dimZ.toNat := by unfold JobState.n; rw [h.req]
  have hfin := MReach.step h.reach (quiet_alone (by intros; nofun) (by intros; nofun))
    (MStep.finish s 0 0 J h.job h.phase (fun z hz => by
      rw [hJn] at hz
      rw [h.done z hz]
      cases present z with
      | true => exact .inr ⟨_, if_pos rfl⟩
      | false => exact .inl (if_neg (by decide))) h.cur)
  have hn := reach_mono (Q := NoOverlap) (fun s l h => h.1) hfin
  obtain ⟨_, es, he, hperm⟩ := job_reply_exact _ hn 0 { J with phase := .returned (if (s.final 0).isSome then .err
    else .svx (upd s.final 0 (some (s.zip 0)) 0)) } (upd_same s.job 0 _) _ rfl
  dsimp only at he
  rw [h.final] at he
  dsimp only [Option.isSome] at he
  rw [if_neg (by decide), upd_same] at he
  injection he with he
  injection he with he
  obtain ⟨base, cuts, _, _, _, hrq⟩ := newJob_ok_iff.mp hr
  have d1 : r.Dim = q.Dim := by rw [hrq]
  have d2 : r.NX = q.NX := by rw [hrq]
  have d3 : r.NY = q.NY := by rw [hrq]
  have d4 : r.NZ = q.NZ := by rw [hrq]
  refine ⟨_, es.map (content fun _ => r), Answers.archive (es := s.zip 0) (req := fun _ => r) hfin rfl (upd_same _ _ _) ?_ ?_, ?_, ?_⟩
  · intro j K hK
    dsimp only at hK
    by_cases e : j = 0
    · subst e
      rw [upd_same] at hK
      injection hK with hK
      subst hK
      exact h.req.symm
    · rw [upd_ne _ _ _ _ e, h.others j e] at hK
      cases hK
  · dsimp only
    rw [h.final, upd_same]
    rfl
  · rw [he, List.map_append]
    unfold headerEntries
    rw [h.req, List.map_cons, List.map_cons, List.map_cons, List.map_nil]
    unfold content manifestEntry blankEntry
    dsimp only
    rw [d1, d2, d3, d4]
    rfl
  · refine (hperm.map (content fun _ => r)).trans ?_
    have : (doneSlices 0 J).map (content fun _ => r) = ((List.range r.L.dimZ.toNat).filter present).map fun z : Nat =>
        (sliceName q.Dim q.NX q.NY q.NZ (z + 1), Content.raw (codec.png (img z))) := by
      unfold doneSlices
      rw [hJn, ← List.filterMap_eq_map, ← List.filterMap_eq_map, List.filterMap_filterMap, List.filterMap_filter]
      apply List.filterMap_congr
      intro z hz
      rw [h.done z (List.mem_range.mp hz)]
      cases hz : present z with
      | true =>
        rw [if_pos rfl, if_pos rfl]
        dsimp only
        rw [Option.bind_some]
        unfold content sliceEntry
        simp only [h.req, d1, d2, d3, d4, Function.comp]
      | false =>
        rw [if_neg (by decide), if_neg (by decide)]
        rfl
    rw [← this]
    exact List.Perm.refl _

end

section
variable {lib : Lib ℚ} {codec : Codec ℚ} {unzip : Bytes → Option (List (ZFile ℚ))} {unpng : Bytes → Option Pic}

/-- **C137.** And the client does not see it: for every set of slices to be lost there is a successful run of it after which svx2stl reads, from the file it has
    written, exactly the model without the layers of these slices. -/
theorem every_gap_happens (hfa : Faithful codec unzip unpng) {d : Disk} {args : List Bytes} {fl : ClientFlags}
    (hfl : clientFlags args = some fl) {names : List Bytes} {base : List (Tri (Vec ℚ))} {cuts : List (List (Tri (Vec ℚ)))}
    (hs : fl.stl ≠ []) (hp : Pieces 44 fl.stl names) (hl : FilesHold lib.load d names (base :: cuts)) (hb : base ≠ [])
    (hpre : fl.pre = ascii "out") (hnz : fl.nz = 1) (hd : 0 < fl.dim) (hn : 0 < fl.nx ∧ 0 < fl.ny) (hB : Proper (lib.bbox base))
    (hok : ∀ f ∈ base :: cuts, ∃ L, layout (lib.bbox f) (boxScale (lib.bbox f)) fl.dim fl.nx fl.ny 1 = .ok L) {L : Layout ℚ}
    (hL : layout (lib.bbox base) (boxScale (lib.bbox base)) fl.dim fl.nx fl.ny 1 = .ok L) (hle : L.dimZ ≤ 9998) (present : Nat → Bool) :
    ∃ d' b, ClientProc lib (fun _ q r => Answers lib codec Alone q r) d args d' .done ∧
      svxOpen unzip d' (outName (ascii "out") fl.dim fl.nx fl.ny 1) = .ok b ∧
      ∀ k : Key, Present b k ↔ ∃ (z : Nat) (x y : Int), z < L.dimZ.toNat ∧ present z = true ∧
        SliceSolid (wholeModel L (lib.bbox base) fl.nx fl.ny 1) (lib.mesh base) (cuts.map lib.mesh) z x y ∧
        k = ⟨x + 1, fl.dim - y, z + 1⟩ := by
  let q : Request ℚ := ⟨fl.dim, fl.nx, fl.ny, fl.nz, fl.pre, base :: cuts⟩
  let r : SvxReq ℚ := ⟨fl.dim, fl.nx, fl.ny, fl.nz, fl.pre, L, lib.bbox base⟩
  have hr : newJob lib q = .ok r := newJob_ok_iff.mpr ⟨base, cuts, rfl, hb, by show layout _ _ fl.dim fl.nx fl.ny fl.nz = _; rw [hnz]; exact hL, rfl⟩
  have hag : ∀ z : Nat, ∃ img, Agent lib q z (some img) := by
    intro z
    obtain ⟨img, hi⟩ := (agent_flat_ok (lib.bbox base) _ fl.dim fl.nx fl.ny L hL (lib.mesh base, lib.bbox base)
      (cuts.map fun ts => (lib.mesh ts, lib.bbox ts)) z).1
    refine ⟨img, ?_⟩
    show AgentSliceRun fl.dim fl.nx fl.ny fl.nz z ((base :: cuts).map fun ts => (lib.mesh ts, lib.bbox ts)) (some img)
    rw [hnz]
    refine Or.inl ⟨L, hL, ?_, hi⟩
    intro f hfm
    obtain ⟨c, hc, rfl⟩ := List.mem_map.mp hfm
    exact hok c (List.mem_cons_of_mem _ hc)
  choose img himg using hag
  obtain ⟨svx, rest, hans, hsvx, hperm⟩ := gaps_possible (codec := codec) (present := present) (img := img) hr (fun z _ _ => himg z)
  obtain ⟨-, ⟨px, py, pz⟩, mx, my, -⟩ := layout_box hL hd ⟨hn.1, hn.2, by omega⟩ hB
  have hnames : split 44 fl.stl = names := (split_iff _ _ _).mpr hp
  have hload : loadSTL lib d (split 44 fl.stl) = some (base :: cuts) := by rw [hnames]; exact loadSTL_iff.mpr hl
  let d' := put d (outName fl.pre fl.dim fl.nx fl.ny fl.nz) svx
  have hrun : ClientProc lib (fun _ q r => Answers lib codec Alone q r) d args d' .done :=
    ClientProc.saved (files := base :: cuts) (ok := true) hfl hs hload hans .ok
  have hfile : d' (outName (ascii "out") fl.dim fl.nx fl.ny 1) = some svx := by
    rw [← hpre, ← hnz]
    exact put_self _ _ _
  obtain ⟨b, hopen, hk⟩ := (archive_read_gaps hfa hfile (r := r) hpre pz hsvx (img := img) (present := present)
    (solid := fun z => SliceSolid (wholeModel L (lib.bbox base) fl.nx fl.ny 1) (lib.mesh base) (cuts.map lib.mesh) z)
    ((hperm.cons _).cons _)
    (fun z _ _ => agent_shows (q := q) rfl hnz hd hn hB hL (himg z)) (by
      rintro z x y ⟨x0, hfill, _⟩
      obtain ⟨f1, f2, f3⟩ := filled_row hfill
      have f1' : x < fl.nx * L.dimX := f1
      have f3' : y < fl.ny * L.dimY := f3
      show 0 ≤ x ∧ x ≤ fl.dim ∧ 0 ≤ y ∧ y ≤ fl.dim
      exact ⟨x0, by omega, f2, by omega⟩)).1 hle
  exact ⟨d', b, hrun, hopen, hk⟩

end

/-! ## Cases that meet the hypotheses -/

/-- The pyramid of C90 in two layers, of which the lower one is lost. -/
theorem exGap : ∃ (codec : Codec ℚ) (unzip : Bytes → Option (List (ZFile ℚ))) (unpng : Bytes → Option Pic) (d' : Disk) (b : BinVOX ℚ),
    Faithful codec unzip unpng ∧ ClientProc exLib (fun _ q r => Answers exLib codec Alone q r) exNetDisk exArgs d' .done ∧
    svxOpen unzip d' (outName (ascii "out") 2 1 1 1) = .ok b ∧
    ∀ k : Key, Present b k ↔ ∃ (z : Nat) (x y : Int), z < 2 ∧ decide (z = 1) = true ∧
      SliceSolid (wholeModel (⟨1, 1, 2, 2, 2, 2, 2, 2, 2⟩ : Layout ℚ) ⟨⟨0, 0, 0⟩, ⟨2, 2, 2⟩⟩ 1 1 1) (exLib.mesh exPyramid)
        [exLib.mesh exPyramid] z x y ∧ k = ⟨x + 1, 2 - y, z + 1⟩ := by
  obtain ⟨codec, unzip, unpng, hfa⟩ := faithful_exists (F := ℚ)
  have hL : layout (⟨⟨0, 0, 0⟩, ⟨2, 2, 2⟩⟩ : Box ℚ) (boxScale (⟨⟨0, 0, 0⟩, ⟨2, 2, 2⟩⟩ : Box ℚ)) 2 1 1 1 = .ok ⟨1, 1, 2, 2, 2, 2, 2, 2, 2⟩ := by
    decide +kernel
  obtain ⟨d', b, h1, h2, h3⟩ := every_gap_happens (lib := exLib) hfa ex_flags (by show ascii "a.stl,b.stl" ≠ []; decide)
    ((split_iff _ _ _).mp rfl) (loadSTL_iff.mp exLoads) (List.cons_ne_nil _ _) rfl rfl (by decide) (by decide) (exLib_proper _)
    (fun f _ => ⟨_, hL⟩) hL (by decide) (fun z => decide (z = 1))
  exact ⟨codec, unzip, unpng, d', b, hfa, h1, h2, h3⟩

/-- `network_gaps` speaks about this run. -/
example : ∃ (codec : Codec ℚ) (unzip : Bytes → Option (List (ZFile ℚ))) (unpng : Bytes → Option Pic) (d' : Disk),
    Faithful codec unzip unpng ∧ clientFlags exArgs = some exFlags ∧
    ClientProc exLib (fun _ q r => Answers exLib codec Alone q r) exNetDisk exArgs d' .done ∧ exFlags.pre = ascii "out" ∧ exFlags.nz = 1 ∧
    0 < exFlags.dim ∧ (0 < exFlags.nx ∧ 0 < exFlags.ny) ∧ ∀ ts, Proper (exLib.bbox ts) := by
  obtain ⟨codec, unzip, unpng, d', b, hfa, h1, _⟩ := exGap
  exact ⟨codec, unzip, unpng, d', hfa, ex_flags, h1, rfl, rfl, by decide, by decide, exLib_proper⟩

end Net
end StlDice
