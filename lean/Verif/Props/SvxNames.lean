import Verif.Props.Master
import Verif.Lemmas.Names
import Verif.Props.Dice
import Mathlib.Tactic.Linarith
import Mathlib.Tactic.FieldSimp

/-! # Names of the entries of an SVX file and the manifest (C45, C67) -/

namespace StlDice
open GoFloat BinVOX

/-- **C45.** Slice images of one job with different numbers have different names. -/
theorem sliceName_injective (dim nx ny nz i j : Int) (hi : 0 ≤ i) (hj : 0 ≤ j)
    (h : sliceName dim nx ny nz i = sliceName dim nx ny nz j) : i = j := by
  unfold sliceName at h
  exact padInt_injective 4 hi hj (List.append_cancel_left (List.append_cancel_right h))

theorem fmtInt_head (i : Int) : ∃ c r, fmtInt i = c :: r ∧ (isDigit c = true ∨ c = 45) := by
  cases i with
  | ofNat n =>
    show ∃ c r, fmtNat n = c :: r ∧ _
    cases h : fmtNat n with
    | nil => exact absurd h (fmtNat_ne_nil n)
    | cons c r => exact ⟨c, r, rfl, Or.inl (fmtNat_digits n c (by rw [h]; exact List.mem_cons_self))⟩
  | negSucc n => exact ⟨45, _, rfl, Or.inr rfl⟩

/-- **C45.** No slice image is called like the manifest. -/
theorem sliceName_ne_manifest (dim nx ny nz i : Int) : sliceName dim nx ny nz i ≠ ascii "manifest.xml" := by
  obtain ⟨c, r, e, hc⟩ := fmtInt_head dim
  unfold sliceName
  rw [e]
  have hm : ascii "manifest.xml" = 109 :: ascii "anifest.xml" := by decide
  rw [hm]
  simp only [List.cons_append, ne_eq]
  intro h
  injection h with h1 _
  subst h1
  rcases hc with hc | hc
  · exact absurd hc (by decide)
  · exact absurd hc (by decide)

theorem doneSlices_names {F : Type} (i : Nat) (J : JobState F) :
    (doneSlices i J).map (·.name) = ((List.range J.n).filter (fun z => match J.task z with
      | .done _ => true | _ => false)).map
      (fun z : Nat => sliceName J.req.Dim J.req.NX J.req.NY J.req.NZ ((z : Int) + 1)) := by
  unfold doneSlices
  generalize List.range J.n = l
  induction l with
  | nil => rfl
  | cons z l ih =>
    rw [List.filterMap_cons, List.filter_cons]
    cases J.task z <;> simp only [if_true, Bool.false_eq_true, if_false, List.map_cons, ih] <;> rfl

/-- **C45.** When jobs do not overlap, all entries of a returned file have different names, whichever
    slices failed. -/
theorem job_names_distinct {F : Type} (s : MState F) (h : MReach Spec.NoOverlap s) (i : Nat)
    (J : JobState F) (hj : s.job i = some J) (zip : List Entry)
    (hp : J.phase = .returned (.svx (some zip)))
    (hpos : 0 ≤ J.req.L.dimZ) : (zip.map (·.name)).Nodup := by
  obtain ⟨_, es, e, hperm⟩ := job_reply_exact s h i J hj _ hp
  injection e with e
  injection e with e
  subst e
  rw [List.map_append]
  have hes : ∀ nm ∈ es.map (·.name), ∃ z : Nat, z < J.n ∧
      nm = sliceName J.req.Dim J.req.NX J.req.NY J.req.NZ ((z : Int) + 1) := by
    intro nm hnm
    rw [(hperm.map _).mem_iff, doneSlices_names] at hnm
    obtain ⟨z, hz, rfl⟩ := List.mem_map.mp hnm
    exact ⟨z, List.mem_range.mp (List.mem_filter.mp hz).1, rfl⟩
  have hn : (J.n : Int) = J.req.L.dimZ := by unfold JobState.n; omega
  have hnd : (es.map (·.name)).Nodup := by
    rw [(hperm.map _).nodup_iff, doneSlices_names]
    apply List.Nodup.map_on _ (List.nodup_range.filter _)
    intro a _ b _ hab
    have := sliceName_injective _ _ _ _ _ _ (by omega) (by omega) hab
    omega
  unfold headerEntries
  simp only [List.map_cons, List.map_nil, List.cons_append, List.nil_append, List.nodup_cons, List.mem_cons]
  refine ⟨?_, ?_, ?_, hnd⟩
  · rintro (h1 | h1 | h1)
    · exact sliceName_ne_manifest _ _ _ _ _ h1.symm
    · exact sliceName_ne_manifest _ _ _ _ _ h1.symm
    · obtain ⟨z, _, h2⟩ := hes _ h1
      exact sliceName_ne_manifest _ _ _ _ _ h2.symm
  · rintro (h1 | h1)
    · have := sliceName_injective _ _ _ _ _ _ (by omega) (by omega) h1
      omega
    · obtain ⟨z, _, h2⟩ := hes _ h1
      have := sliceName_injective _ _ _ _ _ _ (by omega) (by omega) h2
      omega
  · intro h1
    obtain ⟨z, hz, h2⟩ := hes _ h1
    have := sliceName_injective _ _ _ _ _ _ (by omega) (by omega) h2
    omega

/-- **C45.** The manifest's name pattern gives the name under which the images are stored iff the
    request's prefix is `out`: the entries always use `out`. -/
theorem manifest_matches_iff (dim nx ny nz i : Int) (outPrefix : Bytes) :
    manifestName dim outPrefix nx ny nz i = sliceName dim nx ny nz i ↔ outPrefix = ascii "out" := by
  unfold manifestName sliceName
  have e : ascii "/out-" = ascii "/" ++ ascii "out" ++ ascii "-" := by decide
  rw [e]
  simp only [List.append_assoc]
  constructor
  · intro h
    have h := List.append_cancel_left (List.append_cancel_left h)
    exact List.append_cancel_right h
  · rintro rfl; rfl

/-- With the prefix `part`, image 7 is stored under a name the manifest does not mention. -/
example : manifestName 64 (ascii "part") 2 2 1 7 ≠ sliceName 64 2 2 1 7 := by
  rw [Ne, manifest_matches_iff]; decide

/-- The name of an image, as printed. -/
example : sliceName 64 2 2 1 7 = ascii "64/out-64-2-2-1-0007.png" := by decide

/-! ## Grid size -/

/-- The manifest describes a stack of `count` images of `w × h` pixels: with
    `slicesOrientation="Y"` the slices are stacked along the manifest's Y axis. -/
def Spec.GridDescribes {F : Type} (m : Manifest F) (w h count : Int) : Prop :=
  m.gridSizeX = w ∧ m.gridSizeZ = h ∧ m.gridSizeY = count

theorem voxelsAlong_rat (lo hi v : ℚ) (h : 0 ≤ (hi - lo) * v) : voxelsAlong lo hi v = ⌈(hi - lo) * v⌉ := by
  show (if (0 : ℚ) ≤ ((⌈(hi - lo) * v⌉ : Int) : ℚ) then ⌊((⌈(hi - lo) * v⌉ : Int) : ℚ)⌋
    else ⌈((⌈(hi - lo) * v⌉ : Int) : ℚ)⌉) = _
  have : (0 : ℚ) ≤ ((⌈(hi - lo) * v⌉ : Int) : ℚ) := by
    have : (0 : Int) ≤ ⌈(hi - lo) * v⌉ := Int.ceil_nonneg h
    exact_mod_cast this
  rw [if_pos this, Int.floor_intCast]

theorem voxelsAlong_eq_iff (lo hi scale : ℚ) (dim : Int) (hd : 0 < dim) (hs : 0 < scale)
    (h0 : lo ≤ hi) (h1 : hi - lo ≤ scale) :
    voxelsAlong lo hi ((dim : ℚ) / scale) = dim ↔ ((dim : ℚ) - 1) * scale < (hi - lo) * dim := by
  have hdq : (0 : ℚ) < dim := by exact_mod_cast hd
  rw [voxelsAlong_rat _ _ _ (mul_nonneg (by linarith) (div_nonneg hdq.le hs.le)), Int.ceil_eq_iff]
  have e : (hi - lo) * ((dim : ℚ) / scale) = (hi - lo) * dim / scale := by ring
  rw [e, lt_div_iff₀ hs, div_le_iff₀ hs]
  constructor
  · exact fun h => h.1
  · intro h
    refine ⟨h, ?_⟩
    have := mul_le_mul_of_nonneg_right h1 hdq.le
    linarith [mul_comm (dim : ℚ) scale]

/-- **C67.** In exact arithmetic the manifest describes the images written (each `dim + 2` pixels
    square, `DimZ + 2` of them) iff the job has one layer of tiles along z and the model's extent along
    x and along y rounds up to the full `dim` voxels of its longest side. -/
theorem manifest_grid_iff (r : SvxReq ℚ) (scale : ℚ)
    (h : layout r.MBB scale r.Dim r.NX r.NY r.NZ = .ok r.L) (hd : 0 < r.Dim) (hs : 0 < scale)
    (hn : 0 < r.NZ)
    (hx : r.MBB.Min.X ≤ r.MBB.Max.X ∧ r.MBB.Max.X - r.MBB.Min.X ≤ scale)
    (hy : r.MBB.Min.Y ≤ r.MBB.Max.Y ∧ r.MBB.Max.Y - r.MBB.Min.Y ≤ scale)
    (hz : r.MBB.Min.Z ≤ r.MBB.Max.Z) :
    Spec.GridDescribes (manifestOf r) (r.Dim + 2) (r.Dim + 2) (r.L.dimZ + 2) ↔
      ((r.Dim : ℚ) - 1) * scale < (r.MBB.Max.X - r.MBB.Min.X) * r.Dim ∧
      ((r.Dim : ℚ) - 1) * scale < (r.MBB.Max.Y - r.MBB.Min.Y) * r.Dim ∧ r.NZ = 1 := by
  obtain ⟨_, _, _, _, _, hzn, e1, _, e3, e4, e5, _, _, e8, _⟩ := layout_ok h
  have ev : r.L.vpmm = (r.Dim : ℚ) / scale := e1
  rw [ev] at e3 e4 e5
  have hdq : (0 : ℚ) < r.Dim := by exact_mod_cast hd
  have hmz : 0 ≤ r.L.modelZ := by
    rw [e5, voxelsAlong_rat _ _ _ (mul_nonneg (by linarith) (div_nonneg hdq.le hs.le))]
    exact Int.ceil_nonneg (mul_nonneg (by linarith) (div_nonneg hdq.le hs.le))
  rw [← voxelsAlong_eq_iff _ _ _ _ hd hs hx.1 hx.2, ← voxelsAlong_eq_iff _ _ _ _ hd hs hy.1 hy.2,
    ← e3, ← e4]
  have hzz : r.L.modelZ = r.L.dimZ ↔ r.NZ = 1 := by
    rw [Int.tdiv_eq_ediv_of_nonneg hmz] at e8
    rw [e8]
    rw [e8] at hzn
    constructor
    · intro h1
      by_contra hne
      have hlt : r.L.modelZ / r.NZ < r.L.modelZ := by
        apply Int.ediv_lt_of_lt_mul hn
        have h3 : 0 < r.L.modelZ := by
          rcases lt_or_eq_of_le hmz with h4 | h4
          · exact h4
          · rw [← h4, Int.zero_ediv] at hzn; exact absurd rfl hzn
        have h2 : r.L.modelZ * 2 ≤ r.L.modelZ * r.NZ := Int.mul_le_mul_of_nonneg_left (by omega) hmz
        omega
      omega
    · intro h1; rw [h1, Int.ediv_one]
  unfold Spec.GridDescribes manifestOf
  dsimp only
  rw [← hzz]
  constructor
  · rintro ⟨a, b, c⟩; omega
  · rintro ⟨a, b, c⟩; omega

/-- **C67.** The manifest's voxel size is the pitch of the voxelization in metres: `dim` of them
    make up the length `scale` (in mm) of the longest side. -/
theorem manifest_voxelSize (r : SvxReq ℚ) (scale : ℚ)
    (h : layout r.MBB scale r.Dim r.NX r.NY r.NZ = .ok r.L) (hd : 0 < r.Dim) (hs : 0 < scale) :
    (manifestOf r).voxelSize * 1000 * r.Dim = scale := by
  obtain ⟨_, _, _, _, _, _, e1, e2, _⟩ := layout_ok h
  show r.L.mmpv * (1 / 1000) * 1000 * r.Dim = scale
  have hdq : (r.Dim : ℚ) ≠ 0 := by exact_mod_cast hd.ne'
  have ev : r.L.vpmm = (r.Dim : ℚ) / scale := e1
  have em : r.L.mmpv = (1 : Int) / r.L.vpmm := e2
  rw [em, ev]
  have := hs.ne'
  field_simp
  norm_num

/-- A job for the box `x × y × z` mm at 10 voxels, with its layout. -/
def boxJob (x y z : ℚ) (nz : Int) (L : Layout ℚ) : SvxReq ℚ :=
  ⟨10, 2, 2, nz, ascii "out", L, ⟨⟨0, 0, 0⟩, ⟨x, y, z⟩⟩⟩

def cubeLayout : Layout ℚ := ⟨1, 1, 10, 10, 10, 5, 5, 10, 10⟩
def slabLayout : Layout ℚ := ⟨1, 1, 10, 6, 4, 5, 3, 4, 5⟩

/-- A cube of 10 mm: the manifest is right. -/
example : layout (boxJob 10 10 10 1 cubeLayout).MBB 10 10 2 2 1 = .ok cubeLayout ∧
    Spec.GridDescribes (manifestOf (boxJob 10 10 10 1 cubeLayout)) 12 12 12 := by
  refine ⟨by decide +kernel, ?_, ?_, ?_⟩ <;> rfl

/-- A slab of 10 × 6 × 4 mm: the manifest announces images of 12 × 8 pixels, the images have 12 × 12. -/
example : layout (boxJob 10 6 4 1 slabLayout).MBB 10 10 2 2 1 = .ok slabLayout ∧
    ¬ Spec.GridDescribes (manifestOf (boxJob 10 6 4 1 slabLayout)) 12 12 6 := by
  refine ⟨by decide +kernel, ?_⟩
  rintro ⟨_, h, _⟩
  exact absurd h (by decide)

/-! ### The hypotheses are met -/

example : sliceName 64 2 2 1 7 ≠ sliceName 64 2 2 1 12345 := fun h =>
  absurd (sliceName_injective 64 2 2 1 7 12345 (by omega) (by omega) h) (by omega)

/-- The grid of the cube, and not that of the slab, is the one the manifest describes. -/
example : Spec.GridDescribes (manifestOf (boxJob 10 10 10 1 cubeLayout)) 12 12 12 :=
  (manifest_grid_iff (boxJob 10 10 10 1 cubeLayout) 10 (by decide +kernel) (by decide) (by norm_num) (by decide)
    (by decide +kernel) (by decide +kernel) (by decide +kernel)).mpr (by decide +kernel)

example : (manifestOf (boxJob 10 6 4 1 slabLayout)).voxelSize * 1000 * 10 = 10 :=
  manifest_voxelSize (boxJob 10 6 4 1 slabLayout) 10 (by decide +kernel) (by decide) (by norm_num)

example : ∃ (s : MState ℚ) (J : JobState ℚ) (zip : List Entry), s.job 0 = some J ∧ J.phase = .returned (.svx (some zip)) ∧ zip.length = 5 ∧
    (zip.map (·.name)).Nodup := by
  obtain ⟨s, h, _, J, hj, hn, hd, _, _, hp⟩ := exComplete
  exact ⟨s, J, _, hj, hp, rfl, job_names_distinct s h 0 J hj _ hp (by rw [hd]; decide)⟩

end StlDice
