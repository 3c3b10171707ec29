import Verif.Props.DiceThenScript
import Verif.Props.VoxelMesh

/-! # C78: stldice and its script run through -/

namespace StlDice
namespace Cmd
open Spec BinVOX

section
variable {F : Type} [GoFloat F]

theorem tile_vox_exists {L : Layout F} {B : Box F} (hd : 0 < L.dimX ∧ 0 < L.dimY ∧ 0 < L.dimZ) (mesh : Mesh F) (t : Key) :
    ∃ vox, VoxelizeRun (tileModel L B t) mesh (.ok vox) := by
  obtain ⟨⟨o, ho⟩, -, h3, -⟩ := voxelize_defined (tileModel L B t) mesh
  cases o with
  | ok v => exact ⟨v, ho⟩
  | err =>
    have := (h3 _ ho).mp rfl
    change L.dimX = 0 ∨ L.dimY = 0 ∨ L.dimZ = 0 at this
    omega
  | panic =>
    have nz' : ¬ zeroDim (tileModel L B t) := by
      unfold zeroDim
      show ¬ (L.dimX = 0 ∨ L.dimY = 0 ∨ L.dimZ = 0)
      omega
    obtain ⟨c, hc, -⟩ := voxelize_exact _ _ nz' _ ho
    cases hc

theorem diceArgs_exists [FloatText F] {load : Bytes → Option (Mesh F)} {bbox : Mesh F → Box F} {env : Bytes → Key → FileEnv}
    (henv : ∀ a t, GoodEnv (env a t)) {dim nx ny nz : Int} {B : Box F} {L : Layout F}
    (hL : layout B (boxScale B) dim nx ny nz = .ok L) (hd : 0 < L.dimX ∧ 0 < L.dimY ∧ 0 < L.dimZ) (mesh : Bytes → Mesh F)
    (args : List Bytes) : ∀ (fs : FS) (mbb : Option (Box F)) (pf : GoMap Bytes Unit),
    (∀ a, args.head? = some a → mbb.getD (bbox (mesh a)) = B) → (∀ a ∈ args, (fs.get a).bind load = some (mesh a)) →
    ∃ fs' pf', DiceArgs load bbox env dim nx ny nz args fs mbb pf fs' (.ok pf') := by
  induction args with
  | nil => intro fs mbb pf _ _; exact ⟨fs, pf, .nil⟩
  | cons a args ih =>
    intro fs mbb pf hB hload
    choose vox hvox using tile_vox_exists (L := L) (B := B) hd (mesh a)
    obtain ⟨fs1, e, hg, ho⟩ := diceLoop_good (jobPrefix a dim nx ny nz) vox (env a) (henv a) (tileIndices nx ny nz) fs []
      (mem_tileIndices_nonneg _ _ _) (tileIndices_nodup _ _ _)
    generalize [] ++ (((tileIndices nx ny nz).filter fun t => !fs.has (tileFile (jobPrefix a dim nx ny nz) t) &&
      decide ((vox t).white.length ≠ 0)).map tileSuffix) = pfxs at e
    have hkeep : ∀ n c, fs.get n = some c → fs1.get n = some c := by
      intro n c hn
      by_cases hx : ∃ t ∈ tileIndices nx ny nz, n = tileFile (jobPrefix a dim nx ny nz) t
      · obtain ⟨t, ht, rfl⟩ := hx
        rw [hg t ht, hn]
      · rw [ho n (fun t ht e => hx ⟨t, ht, e⟩), hn]
    obtain ⟨fs', pf', h⟩ := ih fs1 (some B) (pfxs.foldl (fun m v => m.set v ()) pf) (fun _ _ => rfl) (by
      intro b hb
      have := hload b (by simp [hb])
      cases hc : fs.get b with
      | none => rw [hc] at this; cases this
      | some c =>
        rw [hkeep b c hc, ← hc]
        exact this)
    refine ⟨fs', pf', .next (L := L) (hload a (by simp)) ?_ ⟨vox, ?_, e.symm⟩ ?_⟩
    · rw [hB a rfl]; exact hL
    · rw [hB a rfl]; exact hvox
    · rw [hB a rfl]; exact h

/-- **C78.** If the dimension is a multiple of the numbers of tiles, the arguments can be loaded, every tile is at
    least one voxel wide and every file can be written, stldice succeeds. -/
theorem dice_job_succeeds_any [FloatText F] {load : Bytes → Option (Mesh F)} {bbox : Mesh F → Box F}
    {env : Bytes → Key → FileEnv} (henv : ∀ a t, GoodEnv (env a t)) {fl : DiceFlags F} {fs : FS} {base : Bytes} {cuts : List Bytes}
    {mesh : Bytes → Mesh F} {L : Layout F} (job : JobFiles load bbox fl fs base cuts mesh L)
    (hm : fl.mbb ≠ some none) (hdiv : fl.nx ∣ fl.dim ∧ fl.ny ∣ fl.dim ∧ fl.nz ∣ fl.dim) :
    ∃ out fs', DiceCmd load bbox env fl fs out fs' .done := by
  obtain ⟨fs', pf, h⟩ := diceArgs_exists henv job.layout ⟨job.dims.1.1, job.dims.2.1.1, job.dims.2.2.1⟩ mesh fl.args fs fl.mbb.join [] (by
    intro a ha
    rw [job.args] at ha
    injection ha with ha
    subst ha
    rfl) job.loads
  refine ⟨_, fs', .done (by rw [job.args]; simp) ?_ hm rfl h (List.Perm.refl _)⟩
  have h0 := job.divs
  unfold divides divides divides divides
  rw [if_neg (by omega), if_neg (by rw [not_not]; exact Int.tmod_eq_zero_of_dvd hdiv.1), if_neg (by omega),
    if_neg (by rw [not_not]; exact Int.tmod_eq_zero_of_dvd hdiv.2.1), if_neg (by omega),
    if_neg (by rw [not_not]; exact Int.tmod_eq_zero_of_dvd hdiv.2.2)]

/-- A disk with finitely many files. -/
def FiniteDisk (d : Disk) : Prop := ∃ l : List Bytes, ∀ n, d n ≠ none → n ∈ l

theorem finiteDisk_put {d : Disk} (h : FiniteDisk d) (n b : Bytes) : FiniteDisk (put d n b) := by
  obtain ⟨l, hl⟩ := h
  refine ⟨n :: l, ?_⟩
  intro m hm
  by_cases e : m = n
  · simp [e]
  · rw [put_other _ _ e] at hm
    exact List.mem_cons_of_mem _ (hl m hm)

theorem finiteDisk_fs (fs : FS) : FiniteDisk fs.get := by
  refine ⟨fs.keys, ?_⟩
  intro n hn
  rw [GoMap.mem_keys_iff]
  unfold GoMap.has
  cases h : fs.get n with
  | none => exact absurd h hn
  | some _ => rfl

theorem glob_exists {d : Disk} (h : FiniteDisk d) (p ext : Bytes) : ∃ names, Glob d p ext names := by
  classical
  obtain ⟨l, hl⟩ := h
  refine ⟨(l.filter fun n => d n ≠ none ∧ ∃ mid, (47 : UInt8) ∉ mid ∧ n = p ++ mid ++ ext).dedup, List.nodup_dedup _, ?_⟩
  intro n
  rw [List.mem_dedup, List.mem_filter, decide_eq_true_eq]
  exact ⟨fun h => h.2, fun h => ⟨hl n h.1, h⟩⟩

theorem cutLine_runs [FloatText F] (lib : GL F) (load : Bytes → Option (List (Tri (Vec F)))) (workers : Nat) {d : Disk} (hfin : FiniteDisk d)
    {o : Bytes} (ho : o ≠ []) (files : List Bytes) :
    ∃ d', GoodLine lib load workers d (ascii "voxcut" :: ascii "-ostl" :: o :: files) d' ∧ FiniteDisk d' := by
  cases h : cutModel (F := F) d (stlFlags o files) with
  | none => exact ⟨d, ⟨.fatal, .voxcut (.fatal h), fun _ => ⟨o, files, rfl, h⟩⟩, hfin⟩
  | some b =>
    refine ⟨_, ⟨_, .voxcut (.last (env := ⟨true, [], true⟩) (env2 := ⟨true, [], true⟩) h rfl (List.Perm.refl _) rfl
      (.cubes ho rfl ⟨_, _, List.Perm.refl _, List.Perm.refl _, rfl⟩ .ok)), ?_⟩, finiteDisk_put hfin _ _⟩
    intro he
    cases he

theorem cutLines_run [FloatText F] (lib : GL F) (load : Bytes → Option (List (Tri (Vec F)))) (workers : Nat) (fl : DiceFlags F)
    (ts : List Key) : ∀ {d : Disk}, FiniteDisk d →
    ∃ d', ScriptRun (GoodLine lib load workers) d (ts.map (cutLine fl)) d' ∧ FiniteDisk d' := by
  induction ts with
  | nil => intro d hd; exact ⟨d, .nil, hd⟩
  | cons t ts ih =>
    intro d hd
    obtain ⟨d1, h1, f1⟩ := cutLine_runs lib load workers hd (tileStl_ne_nil fl t) (fl.args.map fun a => tileBin fl a t)
    obtain ⟨d2, h2, f2⟩ := ih f1
    exact ⟨d2, .cons h1 h2, f2⟩

theorem mergeLine_runs [FloatText F] (lib : GL F) {load : Bytes → Option (List (Tri (Vec F)))} {workers : Nat} (hw : 1 ≤ workers) {d : Disk}
    (hfin : FiniteDisk d) (p : Bytes) (hall : ∀ mid, ∀ f, d (p ++ mid ++ ascii ".stl") = some f → (load f).isSome) :
    ∃ d', GoodLine lib load workers d [ascii "merge-stl", ascii "-f", ascii "-prefix", p] d' := by
  obtain ⟨names, hg⟩ := glob_exists hfin p (ascii ".stl")
  cases hm : mergeInputs (p ++ ascii ".stl") true names with
  | none =>
    obtain ⟨-, h2⟩ := (mergeInputs_exact _ _ _).1.mp hm
    cases h2
  | some files =>
    have e1 := (mergeInputs_exact _ _ _).2 _ hm
    obtain ⟨s, r, hr, hret⟩ := merge_returns (load := fun n => (d n).bind load) hw files
    obtain ⟨order, -, hres⟩ := (merge_result files s hr r hret).1 (by
      intro f hf
      rw [e1, List.mem_filter] at hf
      obtain ⟨hne, mid, -, rfl⟩ := (hg.2 f).mp hf.1
      cases hc : d (p ++ mid ++ ascii ".stl") with
      | none => exact absurd hc hne
      | some c => exact hall mid c hc)
    rw [hres] at hret
    by_cases h0 : files = []
    · rw [if_pos h0] at hret
      exact ⟨_, .panic, .merge hg (.nilMesh hm hr hret), fun h => nomatch h⟩
    · rw [if_neg h0] at hret
      exact ⟨_, _, .merge hg (.saved hm hr hret .ok), fun h => nomatch h⟩

/-- **C78.** After a successful job the script runs through, every file that must be read can be read, and no
    STL file is too long for the format, if the library's meshes are not. -/
theorem dice_script_runs_any [FloatText F] [LawfulFloatText F] (hF : WhiteCancels F) {load : Bytes → Option (Mesh F)} {bbox : Mesh F → Box F}
    {env : Bytes → Key → FileEnv} (henv : ∀ a t, GoodEnv (env a t)) {fl : DiceFlags F} {fs fs' : FS} {out base : Bytes} {cuts : List Bytes}
    {mesh : Bytes → Mesh F} {L : Layout F} (job : JobFiles load bbox fl fs base cuts mesh L)
    (h : DiceCmd load bbox env fl fs out fs' .done) {lib : GL F}
    (hfit : ∀ ks : List Key, (∀ k ∈ ks, InDims L.dimX L.dimY L.dimZ k) → (lib.voxelMesh ks).length < 4294967296)
    {loadTris : Bytes → Option (List (Tri (Vec F)))}
    (hload : ∀ ts, (lib.stl ts).length < 84 + 50 * 4294967296 → (loadTris (lib.stl ts)).isSome)
    {workers : Nat} (hw : 1 ≤ workers) :
    ∃ d', ScriptRun (GoodLine lib loadTris workers) fs'.get (shellWords out) d' ∧
      ∀ t file, d' (tileStl fl t) = some file → file.length < 84 + 50 * 4294967296 := by
  have nn : ∀ {t}, InDims fl.nx fl.ny fl.nz t → 0 ≤ t.X ∧ 0 ≤ t.Y ∧ 0 ≤ t.Z := by
    intro t ht
    unfold InDims at ht
    omega
  have pos : 0 ≤ fl.dim ∧ 0 ≤ fl.nx ∧ 0 ≤ fl.ny ∧ 0 ≤ fl.nz := by
    have := job.dim
    have := job.divs
    omega
  obtain ⟨hreads, hsame⟩ := diceCmd_tiles_any henv job
    (W := fun a t l => ∃ vox, VoxelizeRun (tileModel L (jobBox bbox fl (mesh base)) t) (mesh a) (.ok vox) ∧ Vox vox l) (by
      intro a _ t _ vox hvox l _
      refine ⟨fun hl => ⟨vox, hvox, hl⟩, ?_⟩
      rintro ⟨vox', hvox', hl⟩
      have nz' : ¬ zeroDim (tileModel L (jobBox bbox fl (mesh base)) t) := by
        have := job.dims
        unfold zeroDim
        show ¬ (L.dimX = 0 ∨ L.dimY = 0 ∨ L.dimZ = 0)
        omega
      obtain ⟨c, hc, -, -, e1⟩ := voxelize_exact _ _ nz' _ hvox
      obtain ⟨c', hc', -, -, e2⟩ := voxelize_exact _ _ nz' _ hvox'
      injection hc with hc
      injection hc' with hc'
      subst hc
      subst hc'
      exact (e1 l).mpr ((e2 l).mp hl)) h
  obtain ⟨tiles, htm, hsort, rfl⟩ := (dice_script h).2 rfl
  have hnd : tiles.Nodup := by
    refine List.Nodup.of_map (tileName []) (hsort.imp ?_)
    intro a b h e
    rw [e] at h
    exact List.lt_irrefl b h
  have hstl0 : ∀ mid, fs'.get (outName fl ++ mid ++ ascii ".stl") = none := by
    intro mid
    rw [hsame _ (fun a _ t _ => tileStl_ne_bin _ _)]
    exact job.freshStl mid
  have htile0 : ∀ t, fs'.get (tileStl fl t) = none := by
    intro t
    unfold tileStl
    rw [tileName_suffix]
    exact hstl0 _
  rw [script_lines job.plain pos (fun t ht => nn ((htm t).mp ht).1), List.append_assoc, List.singleton_append]
  obtain ⟨d1, h1, f1⟩ := cutLines_run lib loadTris workers fl tiles (finiteDisk_fs fs')
  obtain ⟨hres, hother⟩ := script_tiles hF job.args (L := L) (B := jobBox bbox fl (mesh base))
    (W := fun a t l => InDims L.dimX L.dimY L.dimZ l ∧
      ∃ vox, VoxelizeRun (tileModel L (jobBox bbox fl (mesh base)) t) (mesh a) (.ok vox) ∧ Vox vox l) tiles hnd
    (fun t ht => nn ((htm t).mp ht).1) (fun t _ => htile0 t) (fun t ht a ha => hreads t ((htm t).mp ht).1 a ha) h1
  -- every STL file of the job was written by voxcut and is not too long
  have hshort : ∀ mid file, d1 (outName fl ++ mid ++ ascii ".stl") = some file →
      ∃ ts, file = lib.stl ts ∧ file.length < 84 + 50 * 4294967296 := by
    intro mid file hf
    by_cases hx : ∃ t ∈ tiles, outName fl ++ mid ++ ascii ".stl" = tileStl fl t
    · obtain ⟨t, ht, e⟩ := hx
      rw [e] at hf
      rcases hres t ht with ⟨e2, -⟩ | ⟨b, tris, e2, hp, hv, hr⟩
      · rw [e2] at hf; cases hf
      · rw [e2] at hf
        injection hf with hf
        refine ⟨tris, hf.symm, ?_⟩
        rw [← hf, stl_length]
        obtain ⟨wo, co, h1, h2, rfl⟩ := hr
        rw [List.length_map]
        have := hfit (wo ++ co) (by
          intro k hk
          exact ((hv k).mp ((present_vox hp.white k).mp ((Marching.present_iff b h1 h2 k).mp hk))).1.1)
        omega
    · rw [hother _ (fun t ht e => hx ⟨t, ht, e⟩), hstl0] at hf
      cases hf
  have hcomment : GoodLine lib loadTris workers fs'.get [ascii "#!/bin/bash", ascii "-x"] fs'.get :=
    ⟨.done, .comment (by decide), fun h => nomatch h⟩
  have app : ∀ {l₁ l₂ : List (List Bytes)} {a b c : Disk}, ScriptRun (GoodLine lib loadTris workers) a l₁ b →
      ScriptRun (GoodLine lib loadTris workers) b l₂ c → ScriptRun (GoodLine lib loadTris workers) a (l₁ ++ l₂) c := by
    intro l₁ l₂ a b c h1 h2
    induction h1 with
    | nil => exact h2
    | cons h _ ih => exact .cons h (ih h2)
  by_cases hl : 1 < tiles.length
  · rw [if_pos hl]
    obtain ⟨d2, h2⟩ := mergeLine_runs lib hw f1 (outName fl) (by
      intro mid f hf
      obtain ⟨ts, rfl, hlen⟩ := hshort mid f hf
      exact hload ts hlen)
    refine ⟨d2, .cons hcomment (app h1 (.cons h2 .nil)), ?_⟩
    intro t file hf
    obtain ⟨names, e, hg, hmr, he⟩ := goodLine_merge h2
    rw [(merge_stl_touches hmr).1 _ (tileStl_ne_out fl t)] at hf
    unfold tileStl at hf
    rw [tileName_suffix] at hf
    exact (hshort _ file hf).choose_spec.2
  · rw [if_neg hl]
    refine ⟨d1, .cons hcomment (app h1 .nil), ?_⟩
    intro t file hf
    unfold tileStl at hf
    rw [tileName_suffix] at hf
    exact (hshort _ file hf).choose_spec.2

end

/-- **C78.** In exact arithmetic. -/
theorem dice_job_succeeds [FloatText ℚ] {load : Bytes → Option (Mesh ℚ)} {bbox : Mesh ℚ → Box ℚ}
    {env : Bytes → Key → FileEnv} (henv : ∀ a t, GoodEnv (env a t)) {fl : DiceFlags ℚ} {fs : FS} {base : Bytes} {cuts : List Bytes}
    {mesh : Bytes → Mesh ℚ} {L : Layout ℚ} {whole : Bytes → BinVOX ℚ} (job : GoodJob load bbox fl fs base cuts mesh L whole)
    (hm : fl.mbb ≠ some none) (hdiv : fl.nx ∣ fl.dim ∧ fl.ny ∣ fl.dim ∧ fl.nz ∣ fl.dim) :
    ∃ out fs', DiceCmd load bbox env fl fs out fs' .done := dice_job_succeeds_any henv job.files hm hdiv

/-- **C78.** In exact arithmetic. -/
theorem dice_script_runs [FloatText ℚ] [LawfulFloatText ℚ] {load : Bytes → Option (Mesh ℚ)} {bbox : Mesh ℚ → Box ℚ}
    {env : Bytes → Key → FileEnv} (henv : ∀ a t, GoodEnv (env a t)) {fl : DiceFlags ℚ} {fs fs' : FS} {out base : Bytes} {cuts : List Bytes}
    {mesh : Bytes → Mesh ℚ} {L : Layout ℚ} {whole : Bytes → BinVOX ℚ} (job : GoodJob load bbox fl fs base cuts mesh L whole)
    (h : DiceCmd load bbox env fl fs out fs' .done) {lib : GL ℚ}
    (hfit : ∀ ks : List Key, (∀ k ∈ ks, InDims L.dimX L.dimY L.dimZ k) → (lib.voxelMesh ks).length < 4294967296)
    {loadTris : Bytes → Option (List (Tri (Vec ℚ)))}
    (hload : ∀ ts, (lib.stl ts).length < 84 + 50 * 4294967296 → (loadTris (lib.stl ts)).isSome)
    {workers : Nat} (hw : 1 ≤ workers) :
    ∃ d', ScriptRun (GoodLine lib loadTris workers) fs'.get (shellWords out) d' ∧
      ∀ t file, d' (tileStl fl t) = some file → file.length < 84 + 50 * 4294967296 :=
  dice_script_runs_any whiteCancels_rat henv job.files h hfit hload hw

/-! ## An example -/

theorem faceMesh_length (ks : List Key) : (faceMesh ks).length ≤ 12 * ks.dedup.length := by
  unfold faceMesh
  generalize ks.dedup = l
  have h2 : ∀ e ∈ unitSteps, (sideTris e).length = 2 := by decide +kernel
  have hk : ∀ k, ((unitSteps.filter fun e => step k e ∉ ks).flatMap (faceOf k)).length ≤ 12 := by
    intro k
    have hb : ∀ us : List Key, (∀ e ∈ us, e ∈ unitSteps) → (us.flatMap (faceOf k)).length = 2 * us.length := by
      intro us
      induction us with
      | nil => intro _; rfl
      | cons e us ih =>
        intro h
        rw [List.flatMap_cons, List.length_append, ih (fun e he => h e (by simp [he]))]
        unfold faceOf
        rw [List.length_map, h2 e (h e (by simp)), List.length_cons]
        omega
    rw [hb _ (fun e he => (List.mem_filter.mp he).1)]
    have := List.length_filter_le (fun e => step k e ∉ ks) unitSteps
    have h6 : unitSteps.length = 6 := rfl
    omega
  induction l with
  | nil => simp
  | cons k l ih =>
    rw [List.flatMap_cons, List.length_append, List.length_cons]
    have := hk k
    omega

/-- The flags of `stldice -mbb 0,0,0,4,4,4 -dim 4 -nx 2 -ny 1 -nz 1 a.stl b.stl`. -/
def exFlags : DiceFlags ℚ :=
  ⟨some (some ⟨⟨0, 0, 0⟩, ⟨4, 4, 4⟩⟩), 4, 2, 1, 1, [ascii "a.stl", ascii "b.stl"]⟩

/-- A directory with these two files. -/
def exDir : FS := [(ascii "a.stl", [1]), (ascii "b.stl", [2])]

def exLayout : Layout ℚ := ⟨1, 1, 4, 4, 4, 2, 4, 4, 4⟩

theorem exDir_get {n : Bytes} (ha : n ≠ ascii "a.stl") (hb : n ≠ ascii "b.stl") : exDir.get n = none := by
  have h1 : (ascii "a.stl" == n) = false := by rw [beq_eq_false_iff_ne]; exact ha.symm
  have h2 : (ascii "b.stl" == n) = false := by rw [beq_eq_false_iff_ne]; exact hb.symm
  cases h : exDir.get n with
  | none => rfl
  | some c =>
    have hm : n ∈ exDir.keys := by
      rw [GoMap.mem_keys_iff]
      unfold GoMap.has
      rw [h]
      rfl
    have : n = ascii "a.stl" ∨ n = ascii "b.stl" := by
      simpa [exDir, GoMap.keys] using hm
    rcases this with e | e
    · exact absurd e ha
    · exact absurd e hb

/-- The hypotheses of C78 are met: whatever the two meshes are, there is a good job, stldice has a
    successful run, and its script has a run; the mesher is `faceMesh` and the files are
    read by the parser of C54. -/
theorem exJob_runs [FloatText ℚ] [LawfulFloatText ℚ] (mA mB : Mesh ℚ) (bits : ℚ → Nat) (f32 : Nat → ℚ) (parseF : Bytes → ℚ) (workers : Nat := 3)
    (hwk : 0 < workers := by decide) :
    ∃ (load : Bytes → Option (Mesh ℚ)) (mesh : Bytes → Mesh ℚ) (whole : Bytes → BinVOX ℚ) (out : Bytes) (fs' : FS) (d' : Disk)
      (loadTris : Bytes → Option (List (Tri (Vec ℚ)))) (lib : GL ℚ),
      mesh (ascii "a.stl") = mA ∧ mesh (ascii "b.stl") = mB ∧
      GoodJob load (fun _ => ⟨⟨0, 0, 0⟩, ⟨0, 0, 0⟩⟩) exFlags exDir (ascii "a.stl") [ascii "b.stl"] mesh exLayout whole ∧
      DiceCmd load (fun _ => ⟨⟨0, 0, 0⟩, ⟨0, 0, 0⟩⟩) (fun _ _ => ⟨true, [], true⟩) exFlags exDir out fs' .done ∧
      (∀ ks : List Key, (∀ k ∈ ks, InDims exLayout.dimX exLayout.dimY exLayout.dimZ k) → IsVoxelMesh ks (lib.voxelMesh ks)) ∧
      (∀ ts, (lib.stl ts).length < 84 + 50 * 4294967296 → loadTris (lib.stl ts) = some (ts.map (moveTri (asFloat32 bits f32)))) ∧
      ScriptRun (GoodLine lib loadTris workers) fs'.get (shellWords out) d' ∧
      ∀ t file, d' (tileStl exFlags t) = some file → file.length < 84 + 50 * 4294967296 := by
  let mesh : Bytes → Mesh ℚ := fun n => if n = ascii "a.stl" then mA else mB
  let load : Bytes → Option (Mesh ℚ) := fun c => some (if c = [1] then mA else mB)
  let bbox : Mesh ℚ → Box ℚ := fun _ => ⟨⟨0, 0, 0⟩, ⟨0, 0, 0⟩⟩
  let lib : GL ℚ := ⟨bits, fun t => t.V1, faceMesh⟩
  let loadTris : Bytes → Option (List (Tri (Vec ℚ))) := fun f =>
    match StlText.stlToMesh f32 parseF f with
    | .ok ts => some ts
    | _ => none
  have hwhole : ∀ a, ∃ w, VoxelizeRun (wholeModel exLayout (⟨⟨0, 0, 0⟩, ⟨4, 4, 4⟩⟩ : Box ℚ) 2 1 1) (mesh a) (.ok w) := by
    intro a
    obtain ⟨⟨o, ho⟩, -, h3, -⟩ := voxelize_defined (wholeModel exLayout (⟨⟨0, 0, 0⟩, ⟨4, 4, 4⟩⟩ : Box ℚ) 2 1 1) (mesh a)
    have nz' : ¬ zeroDim (wholeModel exLayout (⟨⟨0, 0, 0⟩, ⟨4, 4, 4⟩⟩ : Box ℚ) 2 1 1) := by
      unfold zeroDim
      decide
    obtain ⟨c, hc, -⟩ := voxelize_exact _ _ nz' _ ho
    exact ⟨c, hc ▸ ho⟩
  choose whole hw using hwhole
  have job : GoodJob load bbox exFlags exDir (ascii "a.stl") [ascii "b.stl"] mesh exLayout whole := by
    refine ⟨rfl, by decide, ?_, by decide, by decide, ?_, ?_, ?_, by decide, ?_, ?_, ?_⟩
    · unfold Plain
      decide
    · intro a ha
      have : a = ascii "a.stl" ∨ a = ascii "b.stl" := by simpa [exFlags] using ha
      rcases this with rfl | rfl <;> rfl
    · show (0 : ℚ) < boxScale (⟨⟨0, 0, 0⟩, ⟨4, 4, 4⟩⟩ : Box ℚ)
      decide +kernel
    · show layout (⟨⟨0, 0, 0⟩, ⟨4, 4, 4⟩⟩ : Box ℚ) (boxScale (⟨⟨0, 0, 0⟩, ⟨4, 4, 4⟩⟩ : Box ℚ)) 4 2 1 1 = .ok exLayout
      decide +kernel
    · intro a _
      exact hw a
    · intro a _ t _
      exact exDir_get (fun e => tileStl_ne_bin (ascii "a") _ e.symm) (fun e => tileStl_ne_bin (ascii "b") _ e.symm)
    · intro mid
      refine exDir_get ?_ ?_ <;>
      · intro e
        have := congrArg List.head? e
        revert this
        show (outName exFlags ++ mid ++ ascii ".stl").head? = _ → _
        have h0 : ∃ r, outName exFlags = 111 :: r := ⟨_, rfl⟩
        obtain ⟨r, hr⟩ := h0
        rw [hr]
        simp
        decide
  obtain ⟨out, fs', h⟩ := dice_job_succeeds (env := fun _ _ => ⟨true, [], true⟩)
    (by intro _ _; exact ⟨rfl, rfl, fun _ h => (List.not_mem_nil h).elim⟩) job (by decide) (by decide)
  have hload : ∀ ts, (lib.stl ts).length < 84 + 50 * 4294967296 →
      loadTris (lib.stl ts) = some (ts.map (moveTri (asFloat32 bits f32))) := by
    intro ts hl
    show (match StlText.stlToMesh f32 parseF (lib.stl ts) with
      | .ok ts => some ts
      | _ => none) = _
    rw [stl_parses lib ts hl]
  obtain ⟨d', h1, h2⟩ := dice_script_runs (lib := lib) (loadTris := loadTris) (workers := workers)
    (by intro _ _; exact ⟨rfl, rfl, fun _ h => (List.not_mem_nil h).elim⟩) job h (by
      intro ks hks
      have hl := faceMesh_length ks
      have hsub : ks.dedup.length ≤ (tileIndices 2 4 4).length := by
        refine (List.subperm_of_subset ks.nodup_dedup ?_).length_le
        intro k hk
        rw [mem_tileIndices]
        exact hks k (List.mem_dedup.mp hk)
      have h32 : (tileIndices 2 4 4).length = 32 := by decide
      show (faceMesh ks).length < 4294967296
      omega) (by
      intro ts hl
      rw [hload ts hl]
      rfl) hwk
  exact ⟨load, mesh, whole, out, fs', d', loadTris, lib, rfl, rfl, job, h, fun ks _ => faceMesh_isVoxelMesh ks, hload, h1, h2⟩

theorem exEnv_good (a : Bytes) (t : Key) : GoodEnv ((fun _ _ => ⟨true, [], true⟩ : Bytes → Key → FileEnv) a t) :=
  ⟨rfl, rfl, fun _ h => (List.not_mem_nil h).elim⟩

/-- The two walls of Props/Voxelize diced, nothing cut off, and the script run: `dice_then_script`, `dice_script` and
    `dice_cmd_keeps` apply; the voxel (1, 1, 1) is left, and both tiles are printed and merged. -/
example (bits : ℚ → Nat) (f32 : Nat → ℚ) (parseF : Bytes → ℚ) : ∃ (load : Bytes → Option (Mesh ℚ)) (mesh : Bytes → Mesh ℚ) (whole : Bytes → BinVOX ℚ)
    (out : Bytes) (fs' : FS) (d' : Disk),
    GoodJob load (fun _ => ⟨⟨0, 0, 0⟩, ⟨0, 0, 0⟩⟩) exFlags exDir (ascii "a.stl") [ascii "b.stl"] mesh exLayout whole ∧
    DiceCmd load (fun _ => ⟨⟨0, 0, 0⟩, ⟨0, 0, 0⟩⟩) (fun _ _ => ⟨true, [], true⟩) exFlags exDir out fs' .done ∧
    fs'.get (ascii "a.stl") = some [1] ∧ Vox (whole (ascii "a.stl")) ⟨1, 1, 1⟩ ∧
    ∃ tiles : List Key, (∀ t ∈ tiles, InDims 2 1 1 t) ∧
      out = scriptText (outName exFlags) (exFlags.args.map fun a => jobName (trimStl a) 4 2 1 1) tiles ∧
    ∃ m : Key → List (Tri (Vec ℚ)), ∀ t, InDims 2 1 1 t → d' (tileStl exFlags t) ≠ none →
      TileMesh exLayout ⟨⟨0, 0, 0⟩, ⟨4, 4, 4⟩⟩ t (boxScale (⟨⟨0, 0, 0⟩, ⟨4, 4, 4⟩⟩ : Box ℚ) / 4) (TileLeft exLayout (ascii "a.stl") [ascii "b.stl"] whole t) (m t) := by
  obtain ⟨load, mesh, whole, out, fs', d', loadTris, lib, hA, -, job, h, hlib, hload, hs, hsmall⟩ :=
    exJob_runs wallMesh ⟨fun _ => wallMesh.heap 0, []⟩ bits f32 parseF
  have ex := dice_then_script exEnv_good job h hlib hload hs hsmall
  obtain ⟨tiles, h1, -, h2⟩ := (dice_script h).2 rfl
  refine ⟨load, mesh, whole, out, fs', d', job, h, dice_cmd_keeps h rfl, ?_, tiles, fun t ht => ((h1 t).mp ht).1, h2, ?_⟩
  · have hw := job.voxelized (ascii "a.stl") (by decide)
    rw [hA] at hw
    obtain ⟨c, hc, -, -, hk⟩ := voxelize_exact _ _ (by decide +kernel) _ hw
    cases hc
    exact (hk ⟨1, 1, 1⟩).mpr ⟨by decide, by decide, ((sliceRows_mem (wholeModel exLayout (⟨⟨0, 0, 0⟩, ⟨4, 4, 4⟩⟩ : Box ℚ) 2 1 1) wallMesh 1
      ⟨1, 1, 1⟩).mp (by decide +kernel)).2⟩
  · obtain ⟨m, hm, -⟩ := ex
    exact ⟨m, fun t ht _ => (hm t ht).2⟩

/-- `dice_cmd_rerun`: the same command again. -/
example : ∃ (load : Bytes → Option (Mesh ℚ)) (out : Bytes) (fs' gs' : FS) (out' : Bytes) (e : Exit),
    DiceCmd load (fun _ => ⟨⟨0, 0, 0⟩, ⟨0, 0, 0⟩⟩) (fun _ _ => ⟨true, [], true⟩) exFlags exDir out fs' .done ∧
    DiceCmd load (fun _ => ⟨⟨0, 0, 0⟩, ⟨0, 0, 0⟩⟩) (fun _ _ => ⟨true, [], true⟩) exFlags fs' out' gs' e ∧
    gs' = fs' ∧ e = .done ∧ out' = ascii "#!/bin/bash -x\n" := by
  obtain ⟨load, mesh, whole, out, fs', d', loadTris, lib, hA, -, job, h, hlib, hload, hs, hsmall⟩ :=
    exJob_runs wallMesh ⟨fun _ => wallMesh.heap 0, []⟩ (fun _ => 0) (fun _ => 0) (fun _ => 0)
  obtain ⟨gs', pf, hr⟩ := diceArgs_exists (bbox := fun _ => ⟨⟨0, 0, 0⟩, ⟨0, 0, 0⟩⟩) exEnv_good job.layout
    ⟨job.dims.1.1, job.dims.2.1.1, job.dims.2.2.1⟩ mesh exFlags.args fs' exFlags.mbb.join [] (fun _ _ => rfl) (by
    intro a ha
    have := job.loads a ha
    cases hc : exDir.get a with
    | none => rw [hc] at this; cases this
    | some c =>
      rw [dice_cmd_keeps h hc, ← hc]
      exact this)
  have h' : DiceCmd load (fun _ => ⟨⟨0, 0, 0⟩, ⟨0, 0, 0⟩⟩) (fun _ _ => ⟨true, [], true⟩) exFlags fs' _ gs' .done :=
    .done (by decide) (by decide) nofun rfl hr (List.Perm.refl _)
  exact ⟨load, out, fs', gs', _, .done, h, h', dice_cmd_rerun h (fun _ _ h => h) h'⟩

end Cmd
end StlDice
