import Verif.Props.SvxCli
import Verif.Props.Svx
import Verif.Props.Slave
import Verif.Props.DiceRuns

/-! # Further parts of C53, C64, C68 and C77 -/

namespace StlDice
open GoFloat BinVOX Spec

/-! ## stldice-slave -/

namespace Slave
variable {F : Type} [FloatText F] {env : Env F}

/-- **C53.** A slave can always be brought back: from every state of every history there is a way to a running
    server with the same files and the same answers given. -/
theorem slave_restarts {disk : Bytes → Option Bytes} {s : State F} (_ : Reach env (start disk) s) :
    ∃ t, Reach env s t ∧ t.dead = false ∧ t.disk = s.disk ∧ t.replies = s.replies := by
  cases h : s.dead with
  | false => exact ⟨s, .refl, h, rfl, rfl⟩
  | true => exact ⟨_, .step .refl (.restart h), rfl, rfl, rfl⟩

/-- **C53.** A server that was just started takes requests. -/
theorem slave_starts (disk : Bytes → Option Bytes) (q : Request F) :
    Step env (start disk) (handle env (start disk) q) := .request q rfl .atOnce

end Slave

/-! ## stl2svx -/

/-- **C68.** The complete archive of a job of `dimZ` slices: the manifest, then `dimZ + 2` images, numbered from
    0 without gaps. -/
theorem cli_job_archive (dim nx ny nz : Int) (dimZ : Nat) (evs : List ZEv) (res : Option ZState)
    (h : CliRun true (cliNames dim nx ny nz dimZ) evs res)
    (hgood : evs = manifestEvents true ++ mainEvents (cliNames dim nx ny nz dimZ)) :
    ∃ s f, res = some s ∧ s.final = some f ∧ f.length = dimZ + 3 ∧ f[0]? = some (ascii "manifest.xml", true) ∧
      ∀ k, k < dimZ + 2 → f[k + 1]? = some (sliceName dim nx ny nz (k : Nat), true) := by
  have hne := cliNames_ne dim nx ny nz dimZ
  have hlen : (cliNames dim nx ny nz dimZ).length = dimZ + 2 := by
    unfold cliNames
    rw [List.length_map, List.length_range]
  have hget : ∀ k, k < dimZ + 2 → (cliNames dim nx ny nz dimZ)[k]? = some (sliceName dim nx ny nz (k : Nat)) := by
    intro k hk
    unfold cliNames
    rw [List.getElem?_map, List.getElem?_range hk]
    rfl
  generalize cliNames dim nx ny nz dimZ = l at *
  cases l with
  | nil => cases hlen
  | cons n ns =>
    obtain ⟨s, hs, hf⟩ := (cli_archive_iff n ns hne evs res h).mpr hgood
    refine ⟨s, _, hs, hf, ?_, ?_, ?_⟩
    · unfold Spec.GoodArchive
      rw [List.length_cons, List.length_map, hlen]
    · rfl
    · intro k hk
      unfold Spec.GoodArchive
      rw [List.getElem?_cons_succ, List.getElem?_map, hget k hk]
      rfl

/-! ## stldice-mr -/

/-- **C64.** A tile that cannot be voxelized adds nothing. -/
theorem mr_failed_tile {F : Type} [GoFloat F] (j : BvInfo F) (hz : j.bv.NX = 0 ∨ j.bv.NY = 0 ∨ j.bv.NZ = 0)
    (es : List (Int × VoxelInfo)) (h : MrEmitRun j es) : es = [] := by
  obtain ⟨out, hr, ho⟩ := h
  have := ((voxelize_defined j.bv j.mesh).2.2.1 out hr).mpr hz
  subst this
  exact ho

/-- **C64.** A slice has an image iff some tile of the base or of a cut fills a cell of it. -/
theorem mr_image_exists_iff {F : Type} [GoFloat F] (mbb : Box F) (scale : F) (dim nx ny nz : Int) (L : Layout F)
    (h : layout mbb scale dim nx ny nz = .ok L) (base : Mesh F × Box F) (cuts : List (Mesh F × Box F)) (z : Int) :
    (∃ img, MrRun dim z (svxJobs L mbb nx ny nz (base :: cuts)) img) ↔
      0 ≤ z ∧ z < L.dimZ ∧ ∃ t, InDims nx ny nz t ∧ ∃ m ∈ base :: cuts, ∃ x y, 0 ≤ x ∧ 0 ≤ y ∧
        Filled (tileModel L mbb t) m.1 z y x := by
  obtain ⟨_, _, _, hx', hy', hz', _⟩ := layout_ok h
  have hall : ∀ job ∈ svxJobs L mbb nx ny nz (base :: cuts),
      job.bv.ColorVoxels = none ∧ ¬ zeroDim job.bv := by
    intro job hj
    refine ⟨svxJobs_color L mbb nx ny nz _ job hj, ?_⟩
    obtain ⟨t, _, rfl | ⟨c, _, rfl⟩⟩ := (mem_svxJobs _ _ _ _ _ _ _ _).mp hj
    · rintro (e | e | e)
      · exact hx' e
      · exact hy' e
      · exact hz' e
    · rintro (e | e | e)
      · exact hx' e
      · exact hy' e
      · exact hz' e
  have hmem : ∀ (jobs : List (BvInfo F)) (ess : List (List (Int × VoxelInfo))), List.Forall₂ MrEmitRun jobs ess →
      (∀ job ∈ jobs, job.bv.ColorVoxels = none ∧ ¬ zeroDim job.bv) → ∀ v : VoxelInfo,
      v ∈ mrGroup z ess.flatten ↔ ∃ job ∈ jobs,
      v.Base = job.base ∧ 0 ≤ v.X ∧ 0 ≤ v.Y ∧ 0 ≤ z ∧ z < job.bv.NZ ∧ Filled job.bv job.mesh z v.Y v.X := by
    intro jobs ess hf ha v
    have h1 : v ∈ mrGroup z ess.flatten ↔ ∃ es ∈ ess, (z, v) ∈ es := by
      unfold mrGroup
      simp only [List.mem_map, List.mem_filter, List.mem_flatten, decide_eq_true_eq]
      constructor
      · rintro ⟨⟨z', v'⟩, ⟨⟨es, he, hm⟩, hz⟩, rfl⟩
        dsimp only at hz
        subst hz
        exact ⟨es, he, hm⟩
      · rintro ⟨es, he, hm⟩
        exact ⟨(z, v), ⟨⟨es, he, hm⟩, rfl⟩, rfl⟩
    rw [h1]
    clear h1
    induction hf with
    | nil => simp
    | @cons job es js ess' hj _ ih =>
      have ih := ih (fun a hm => ha a (List.mem_cons_of_mem _ hm))
      have hjob := mrEmit_exact job (ha job List.mem_cons_self).1 (ha job List.mem_cons_self).2 es hj z v
      simp only [List.mem_cons, exists_eq_or_imp]
      exact or_congr hjob ih
  constructor
  · rintro ⟨img, ess, hf, vs, hne, hp, _⟩
    obtain ⟨v, vs', rfl⟩ := List.exists_cons_of_ne_nil hne
    obtain ⟨job, hj, _, d1, d2, d3, d4, d5⟩ := (hmem _ ess hf hall v).mp (hp.mem_iff.mp (by simp))
    obtain ⟨t, ht, rfl | ⟨c, hc, rfl⟩⟩ := (mem_svxJobs _ _ _ _ _ _ _ _).mp hj
    · exact ⟨d3, d4, t, ht, base, by simp, v.X, v.Y, d1, d2, d5⟩
    · exact ⟨d3, d4, t, ht, c, by simp [hc], v.X, v.Y, d1, d2, d5⟩
  · rintro ⟨hz0, hz1, t, ht, m, hm, x, y, hx, hy, hf⟩
    have hemit : ∀ job : BvInfo F, ∃ es, MrEmitRun job es := by
      intro job
      obtain ⟨out, ho⟩ := (voxelize_defined job.bv job.mesh).1
      cases out with
      | ok b' => exact ⟨_, .ok b', ho, _, List.Perm.refl _, rfl⟩
      | err => exact ⟨[], .err, ho, rfl⟩
      | panic => exact ⟨[], .panic, ho, rfl⟩
    choose em hem using hemit
    have hfor : ∀ jobs : List (BvInfo F), List.Forall₂ MrEmitRun jobs (jobs.map em) := by
      intro jobs
      induction jobs with
      | nil => exact .nil
      | cons j js ih => exact .cons (hem j) ih
    refine ⟨_, _, hfor _, _, ?_, List.Perm.refl _, _, List.Perm.refl _, rfl⟩
    have hv : ∃ job ∈ svxJobs L mbb nx ny nz (base :: cuts), z < job.bv.NZ ∧ Filled job.bv job.mesh z y x := by
      rcases List.mem_cons.mp hm with rfl | hm
      · exact ⟨_, (mem_svxJobs _ _ _ _ _ _ _ _).mpr ⟨t, ht, Or.inl rfl⟩, hz1, hf⟩
      · exact ⟨_, (mem_svxJobs _ _ _ _ _ _ _ _).mpr ⟨t, ht, Or.inr ⟨m, hm, rfl⟩⟩, hz1, hf⟩
    obtain ⟨job, hj, hj1, hj2⟩ := hv
    have := (hmem _ _ (hfor _) hall ⟨x, y, job.base⟩).mpr ⟨job, hj, rfl, hx, hy, hz0, hj1, hj2⟩
    exact List.ne_nil_of_mem this

/-! ## stldice -/

namespace Cmd
open Spec
variable {F : Type} [GoFloat F] [FloatText F]

/-- **C77.** What stldice does with its numbers of divisions: the first of `-nx`, `-ny`, `-nz` that is zero makes it
    panic, the first that does not divide the dimension makes it give up, in both cases before anything is read,
    written or printed; it succeeds only if all three divide the dimension. -/
theorem dice_divisions {load : Bytes → Option (Mesh F)} {bbox : Mesh F → Box F} {env : Bytes → Key → FileEnv}
    {fl : DiceFlags F} {fs fs' : FS} {out : Bytes} {e : Exit} (h : DiceCmd load bbox env fl fs out fs' e)
    (ha : fl.args ≠ []) :
    (∀ pre n post, [fl.nx, fl.ny, fl.nz] = pre ++ n :: post → (∀ m ∈ pre, m ≠ 0 ∧ m ∣ fl.dim) →
      (n = 0 → out = [] ∧ fs' = fs ∧ e = .panic) ∧
      (n ≠ 0 → ¬ n ∣ fl.dim → out = [] ∧ fs' = fs ∧ e = .fatal)) ∧
    (e = .done → ∀ n ∈ [fl.nx, fl.ny, fl.nz], n ≠ 0 ∧ n ∣ fl.dim) := by
  have hd : ∀ (d : Int) (l : List Int), (divides d l = .ok () ↔ ∀ n ∈ l, n ≠ 0 ∧ n ∣ d) ∧
      ∀ pre n post, l = pre ++ n :: post → (∀ m ∈ pre, m ≠ 0 ∧ m ∣ d) →
        (n = 0 → divides d l = .panic) ∧ (n ≠ 0 → ¬ n ∣ d → divides d l = .err) := by
    intro d l
    induction l with
    | nil =>
      refine ⟨⟨fun _ n hn => (List.not_mem_nil hn).elim, fun _ => rfl⟩, ?_⟩
      intro pre n post e
      cases pre <;> cases e
    | cons a l ih =>
      have hdv : d.tmod a = 0 ↔ a ∣ d := ⟨Int.dvd_of_tmod_eq_zero, Int.tmod_eq_zero_of_dvd⟩
      rw [divides]
      by_cases a0 : a = 0
      · rw [if_pos a0]
        refine ⟨⟨fun h => (nomatch h), fun h => absurd a0 (h a (by simp)).1⟩, ?_⟩
        intro pre n post e hpre
        cases pre with
        | nil =>
          injection e with e _
          exact ⟨fun _ => rfl, fun h => absurd (e ▸ a0) h⟩
        | cons b pre =>
          injection e with e _
          exact absurd (e ▸ a0) (hpre b (by simp)).1
      · rw [if_neg a0]
        by_cases ad : a ∣ d
        · rw [if_neg (by rw [not_not, hdv]; exact ad)]
          refine ⟨?_, ?_⟩
          · rw [ih.1]
            simp [a0, ad]
          · intro pre n post e hpre
            cases pre with
            | nil =>
              injection e with e _
              subst e
              exact ⟨fun h => absurd h a0, fun _ h => absurd ad h⟩
            | cons b pre =>
              injection e with _ e
              exact ih.2 pre n post e (fun m hm => hpre m (by simp [hm]))
        · rw [if_pos (by rw [Ne, hdv]; exact ad)]
          refine ⟨⟨fun h => (nomatch h), fun h => absurd (h a (by simp)).2 ad⟩, ?_⟩
          intro pre n post e hpre
          cases pre with
          | nil =>
            injection e with e _
            subst e
            exact ⟨fun h => absurd h a0, fun _ _ => rfl⟩
          | cons b pre =>
            injection e with e _
            subst e
            exact absurd (hpre a (by simp)).2 ad
  refine ⟨?_, ?_⟩
  · intro pre n post hl hpre
    obtain ⟨h1, h2⟩ := (hd fl.dim _).2 pre n post hl hpre
    refine ⟨fun h0 => ?_, fun h0 hnd => ?_⟩
    · have h1 := h1 h0
      cases h with
      | usage h => exact absurd h ha
      | divByZero _ _ => exact ⟨rfl, rfl, rfl⟩
      | notMultiple _ hd | badMbb _ hd _ | failed _ hd _ _ _ | panics _ hd _ _ _ | done _ hd _ _ _ _ =>
        rw [h1] at hd; cases hd
    · have h2 := h2 h0 hnd
      cases h with
      | usage h => exact absurd h ha
      | notMultiple _ _ => exact ⟨rfl, rfl, rfl⟩
      | divByZero _ hd | badMbb _ hd _ | failed _ hd _ _ _ | panics _ hd _ _ _ | done _ hd _ _ _ _ =>
        rw [h2] at hd; cases hd
  · intro he
    cases h with
    | done _ hd' _ _ _ _ => exact (hd fl.dim _).1.mp hd'
    | _ => cases he

/-- **C77.** If the first argument cannot be loaded, stldice fails, prints nothing and changes nothing. -/
theorem dice_unreadable {F : Type} [GoFloat F] [FloatText F] {load : Bytes → Option (Mesh F)} {bbox : Mesh F → Box F} {env : Bytes → Key → FileEnv} {fl : DiceFlags F}
    {fs fs' : FS} {out : Bytes} {e : Exit} {a : Bytes} {rest : List Bytes} (hargs : fl.args = a :: rest)
    (hn : ∀ n ∈ [fl.nx, fl.ny, fl.nz], n ≠ 0 ∧ n ∣ fl.dim) (hm : fl.mbb ≠ some none) (hl : (fs.get a).bind load = none) :
    DiceCmd load bbox env fl fs out fs' e ↔ out = [] ∧ fs' = fs ∧ e = .fatal := by
  have hdiv : divides fl.dim [fl.nx, fl.ny, fl.nz] = .ok () := by
    have h : ∀ ns : List Int, (∀ n ∈ ns, n ≠ 0 ∧ n ∣ fl.dim) → divides fl.dim ns = .ok () := by
      intro ns
      induction ns with
      | nil => intro _; rfl
      | cons n ns ih =>
        intro h
        obtain ⟨h0, h1⟩ := h n (by simp)
        rw [divides, if_neg h0, if_neg (by rw [not_not]; exact Int.tmod_eq_zero_of_dvd h1)]
        exact ih fun m hm => h m (by simp [hm])
    exact h _ hn
  have hne : fl.args ≠ [] := by rw [hargs]; simp
  have hargs' : ∀ {mbb pf fs' r}, DiceArgs load bbox env fl.dim fl.nx fl.ny fl.nz fl.args fs mbb pf fs' r → fs' = fs ∧ r = .err := by
    intro mbb pf fs' r h
    rw [hargs] at h
    cases h with
    | unreadable _ => exact ⟨rfl, rfl⟩
    | layoutFails h _ => rw [hl] at h; cases h
    | layoutPanics h _ => rw [hl] at h; cases h
    | writeFails h _ _ => rw [hl] at h; cases h
    | next h _ _ _ => rw [hl] at h; cases h
  constructor
  · intro h
    cases h with
    | usage h => exact absurd h hne
    | notMultiple _ hd => rw [hdiv] at hd; cases hd
    | divByZero _ hd => rw [hdiv] at hd; cases hd
    | badMbb _ _ h => exact absurd h hm
    | failed _ _ _ _ ha => exact ⟨rfl, (hargs' ha).1, rfl⟩
    | panics _ _ _ _ ha => cases (hargs' ha).2
    | done _ _ _ _ ha _ => cases (hargs' ha).2
  · rintro ⟨rfl, rfl, rfl⟩
    exact .failed hne hdiv hm rfl (by rw [hargs]; exact .unreadable hl)

/-! ## Examples -/

/-- A slave that has just been started. -/
example {F : Type} [FloatText F] (env : Slave.Env F) (disk : Bytes → Option Bytes) := Slave.slave_restarts (env := env) (disk := disk) .refl

/-- Four entries, first the manifest. -/
example : ∃ evs res, CliRun true (cliNames 4 2 1 1 1) evs res ∧ evs = manifestEvents true ++ mainEvents (cliNames 4 2 1 1 1) ∧
    ∃ s f, res = some s ∧ s.final = some f ∧ f.length = 4 := by
  have hi : Interleave [manifestEvents true, mainEvents (cliNames 4 2 1 1 1)] (manifestEvents true ++ mainEvents (cliNames 4 2 1 1 1)) := by
    have two : ∀ a c : List ZEv, Interleave [a, c] (a ++ c) := by
      intro a c
      induction a with
      | nil =>
        induction c with
        | nil => exact .done _ (by simp)
        | cons x c ih => exact .step [[]] [] x c _ ih
      | cons x a ih => exact .step [] [c] x a _ ih
    exact two _ _
  obtain ⟨s, f, h1, h2, h3, -⟩ := cli_job_archive 4 2 1 1 1 _ _ ⟨hi, rfl⟩ rfl
  exact ⟨_, _, ⟨hi, rfl⟩, rfl, s, f, h1, h2, h3⟩

/-- A tile without voxels along x, and a job with such a tile. -/
example : ∃ (j : BvInfo ℚ) (es : List (Int × VoxelInfo)), j.bv.NX = 0 ∧ MrEmitRun j es ∧ es = [] := by
  have hr : VoxelizeRun (BinVOX.New 0 1 1 0 0 0 1 false : BinVOX ℚ) wallMesh .err := by
    unfold VoxelizeRun
    rw [if_pos (by decide)]
  have h : MrEmitRun (⟨0, 0, 0, BinVOX.New 0 1 1 0 0 0 1 false, true, wallMesh⟩ : BvInfo ℚ) [] := ⟨.err, hr, rfl⟩
  exact ⟨_, _, rfl, h, mr_failed_tile _ (Or.inl rfl) _ h⟩

/-- The two walls: slice 1 has an image. -/
example : ∃ img, MrRun 4 1 (svxJobs wallLayout wallBox 2 1 1 [(wallMesh, wallBox)]) img := by
  refine (mr_image_exists_iff wallBox 4 4 2 1 1 wallLayout wall_layout (wallMesh, wallBox) [] 1).mpr
    ⟨by decide, by decide, ⟨0, 0, 0⟩, by unfold InDims; decide, _, List.mem_cons_self, 1, 1, by decide, by decide, ?_⟩
  exact ((sliceRows_mem (tileModel wallLayout wallBox ⟨0, 0, 0⟩) wallMesh 1 ⟨1, 1, 1⟩).mp (by decide +kernel)).2

/-- `stldice -dim 4 -ny 3`, `stldice -dim 4 -nx 0`, and a file that cannot be loaded. -/
example (load : Bytes → Option (Mesh ℚ)) (bbox : Mesh ℚ → Box ℚ) (env : Bytes → Key → FileEnv) (fs : FS) :
    (∃ out fs' e, DiceCmd load bbox env ⟨none, 4, 2, 3, 1, [ascii "a.stl"]⟩ fs out fs' e ∧ out = [] ∧ fs' = fs ∧ e = .fatal) ∧
    (∃ out fs' e, DiceCmd load bbox env ⟨none, 4, 0, 3, 1, [ascii "a.stl"]⟩ fs out fs' e ∧ out = [] ∧ fs' = fs ∧ e = .panic) ∧
    (∃ out fs' e, DiceCmd load bbox env ⟨none, 4, 2, 1, 1, [ascii "a.stl"]⟩ [] out fs' e ∧ out = [] ∧ fs' = [] ∧ e = .fatal) := by
  have h1 : DiceCmd load bbox env ⟨none, 4, 2, 3, 1, [ascii "a.stl"]⟩ fs _ _ _ := .notMultiple (by simp) (by decide)
  have h2 : DiceCmd load bbox env ⟨none, 4, 0, 3, 1, [ascii "a.stl"]⟩ fs _ _ _ := .divByZero (by simp) (by decide)
  refine ⟨⟨_, _, _, h1, ((dice_divisions h1 (by simp)).1 [2] 3 [1] rfl (by decide)).2 (by decide) (by decide)⟩,
    ⟨_, _, _, h2, ((dice_divisions h2 (by simp)).1 [] 0 [3, 1] rfl (by simp)).1 rfl⟩, [], [], .fatal,
    (dice_unreadable (a := ascii "a.stl") (rest := []) rfl (by decide) (by simp) rfl).mpr ⟨rfl, rfl, rfl⟩, rfl, rfl, rfl⟩

end Cmd
end StlDice
