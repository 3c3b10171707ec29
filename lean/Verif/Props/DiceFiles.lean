import Verif.Lemmas.Names
import Verif.Props.Dice
import Verif.Props.BinVoxFile

/-! # The files of a dice job (C36, C37, C35 end to end) -/

namespace StlDice
open Spec GoFloat BinVOX

/-- **C36.** A tile file name determines the job's prefix and the tile (also for indices with more
    than two digits); a job prefix determines the input name (up to a `.stl` ending) and the
    job's numbers. -/
theorem tileFile_injective (P P' : Bytes) (t t' : Key)
    (ht : 0 ≤ t.X ∧ 0 ≤ t.Y ∧ 0 ≤ t.Z) (ht' : 0 ≤ t'.X ∧ 0 ≤ t'.Y ∧ 0 ≤ t'.Z)
    (h : tileFile P t = tileFile P' t') : P = P' ∧ t = t' :=
  tilePrefix_injective P P' t t' ht ht' (List.append_cancel_right h)

theorem job_files_distinct (a a' : Bytes) (d nx ny nz d' nx' ny' nz' : Int) (t t' : Key)
    (h0 : 0 ≤ d ∧ 0 ≤ nx ∧ 0 ≤ ny ∧ 0 ≤ nz) (h0' : 0 ≤ d' ∧ 0 ≤ nx' ∧ 0 ≤ ny' ∧ 0 ≤ nz')
    (ht : t ∈ tileIndices nx ny nz) (ht' : t' ∈ tileIndices nx' ny' nz')
    (h : tileFile (jobPrefix a d nx ny nz) t = tileFile (jobPrefix a' d' nx' ny' nz') t') :
    trimStl a = trimStl a' ∧ d = d' ∧ nx = nx' ∧ ny = ny' ∧ nz = nz' ∧ t = t' := by
  rw [mem_tileIndices] at ht ht'
  unfold InDims at ht ht'
  obtain ⟨h1, h2⟩ := tileFile_injective _ _ t t' (by omega) (by omega) h
  obtain ⟨e1, e2, e3, e4, e5⟩ := jobPrefix_injective a a' d nx ny nz d' nx' ny' nz' h0 h0' h1
  exact ⟨e1, e2, e3, e4, e5, h2⟩

theorem intRange_nodup (a n : Int) : (intRange a n).Nodup := by
  unfold intRange
  apply List.Nodup.map _ List.nodup_range
  intro x y h
  dsimp only at h
  omega

theorem tileIndices_nodup (nx ny nz : Int) : (tileIndices nx ny nz).Nodup := by
  unfold tileIndices
  rw [List.nodup_flatMap]
  refine ⟨?_, ?_⟩
  · intro z _
    rw [List.nodup_flatMap]
    refine ⟨?_, ?_⟩
    · intro y _
      apply List.Nodup.map _ (intRange_nodup _ _)
      intro x x' h
      injection h
    · refine (intRange_nodup 0 ny).imp ?_
      intro y y' hne
      rw [Function.onFun, List.disjoint_left]
      intro k hk hk'
      obtain ⟨x, _, rfl⟩ := List.mem_map.mp hk
      obtain ⟨x', _, e⟩ := List.mem_map.mp hk'
      injection e with _ e _
      exact hne e.symm
  · refine (intRange_nodup 0 nz).imp ?_
    intro z z' hne
    rw [Function.onFun, List.disjoint_left]
    intro k hk hk'
    obtain ⟨y, _, hk⟩ := List.mem_flatMap.mp hk
    obtain ⟨x, _, rfl⟩ := List.mem_map.mp hk
    obtain ⟨y', _, hk'⟩ := List.mem_flatMap.mp hk'
    obtain ⟨x', _, e⟩ := List.mem_map.mp hk'
    injection e with _ _ e
    exact hne e.symm

/-- The suffix returned for a tile. -/
def tileSuffix (t : Key) : Bytes :=
  ascii "-" ++ padInt 2 t.X ++ ascii "-" ++ padInt 2 t.Y ++ ascii "-" ++ padInt 2 t.Z

theorem trim_tilePrefix (P : Bytes) (t : Key) : trimPrefix (tilePrefix P t) P = tileSuffix t := by
  have : tilePrefix P t = P ++ tileSuffix t := by
    unfold tilePrefix tileSuffix
    simp only [List.append_assoc]
  rw [this]
  unfold trimPrefix
  rw [stripPrefix_append]
  rfl

theorem tileSuffix_injective (t t' : Key) (ht : 0 ≤ t.X ∧ 0 ≤ t.Y ∧ 0 ≤ t.Z)
    (ht' : 0 ≤ t'.X ∧ 0 ≤ t'.Y ∧ 0 ≤ t'.Z) (h : tileSuffix t = tileSuffix t') : t = t' := by
  refine (tilePrefix_injective [] [] t t' ht ht' ?_).2
  unfold tilePrefix
  unfold tileSuffix at h
  simpa only [List.nil_append] using h

/-- All system calls of a write succeed. -/
def GoodEnv (e : FileEnv) : Prop := e.createOk = true ∧ e.closeOk = true ∧ ∀ o ∈ e.plan, o = WOut.full

/-- The bytes of the tile file of a model. -/
def tileBytes {F : Type} [FloatText F] (b : BinVOX F) : Bytes := (b.write ⟨[], []⟩ wholeRegion).1.out

theorem write_good {F : Type} [FloatText F] (b : BinVOX F) (hne : b.white.length ≠ 0) (e : FileEnv)
    (he : GoodEnv e) : b.Write e ⟨0, 0, 0, 0, 0, 0⟩ = (some (tileBytes b), true) := by
  obtain ⟨h1, h2, h3⟩ := he
  unfold BinVOX.Write tileBytes wholeRegion
  rw [h1]
  obtain ⟨c, plan, cl⟩ := e
  dsimp only at h2 h3
  subst h2
  have hsink : ∀ (out bs : Bytes) (pl : List WOut), (∀ o ∈ pl, o = WOut.full) →
      ∃ pl' : List WOut, (∀ o ∈ pl', o = WOut.full) ∧
        (Sink.write ⟨out, pl⟩ bs) = (⟨out ++ bs, pl'⟩, true) := by
    intro out bs pl hpl
    cases pl with
    | nil => exact ⟨[], by simp, rfl⟩
    | cons o pl =>
      rw [hpl o (by simp)]
      exact ⟨pl, fun o ho => hpl o (by simp [ho]), rfl⟩
  unfold BinVOX.write
  rw [if_neg hne, if_neg hne]
  dsimp only
  obtain ⟨p1, hp1, e1⟩ := hsink [] (headerBytes binvoxMagic
    (writeRegion b.NX b.NY b.NZ ⟨0, 0, 0, 0, 0, 0⟩).cx
    (writeRegion b.NX b.NY b.NZ ⟨0, 0, 0, 0, 0, 0⟩).cy
    (writeRegion b.NX b.NY b.NZ ⟨0, 0, 0, 0, 0, 0⟩).cz b.TX b.TY b.TZ b.Scale) plan h3
  rw [e1]
  dsimp only
  obtain ⟨p2, hp2, e2⟩ := hsink ([] ++ headerBytes binvoxMagic
    (writeRegion b.NX b.NY b.NZ ⟨0, 0, 0, 0, 0, 0⟩).cx
    (writeRegion b.NX b.NY b.NZ ⟨0, 0, 0, 0, 0, 0⟩).cy
    (writeRegion b.NX b.NY b.NZ ⟨0, 0, 0, 0, 0, 0⟩).cz b.TX b.TY b.TZ b.Scale)
    ((encodeRuns b.white (writeRegion b.NX b.NY b.NZ ⟨0, 0, 0, 0, 0, 0⟩)).flatMap runBytes) p1 hp1
  rw [e2]
  rfl

/-- What a run with working system calls leaves in the directory and returns. -/
theorem diceLoop_good {F : Type} [FloatText F] (P : Bytes) (vox : Key → BinVOX F)
    (env : Key → FileEnv) (henv : ∀ t, GoodEnv (env t)) (ts : List Key) :
    ∀ (fs : FS) (pf : List Bytes), (∀ t ∈ ts, 0 ≤ t.X ∧ 0 ≤ t.Y ∧ 0 ≤ t.Z) → ts.Nodup →
    ∃ fs', diceLoop P vox env ts fs pf = (fs', some (pf ++ (ts.filter fun t =>
        !fs.has (tileFile P t) && decide ((vox t).white.length ≠ 0)).map tileSuffix)) ∧
      (∀ t ∈ ts, fs'.get (tileFile P t) = match fs.get (tileFile P t) with
        | some c => some c
        | none => if (vox t).white.length = 0 then none else some (tileBytes (vox t))) ∧
      (∀ n, (∀ t ∈ ts, n ≠ tileFile P t) → fs'.get n = fs.get n) := by
  induction ts with
  | nil => intro fs pf _ _; exact ⟨fs, by simp [diceLoop], by simp, fun n _ => rfl⟩
  | cons t ts ih =>
    intro fs pf hnn hnd
    have hnd' := List.nodup_cons.mp hnd
    have hnn' : ∀ t ∈ ts, 0 ≤ t.X ∧ 0 ≤ t.Y ∧ 0 ≤ t.Z := fun u hu => hnn u (by simp [hu])
    have hdiff : ∀ u ∈ ts, tileFile P t ≠ tileFile P u := by
      intro u hu he
      have := (tileFile_injective P P t u (hnn t (by simp)) (hnn' u hu) he).2
      exact hnd'.1 (this ▸ hu)
    unfold diceLoop
    by_cases h1 : fs.has (tileFile P t) = true
    · rw [if_pos h1]
      obtain ⟨fs', e, hg, ho⟩ := ih fs pf hnn' hnd'.2
      refine ⟨fs', ?_, ?_, ?_⟩
      · rw [e, List.filter_cons_of_neg]
        simp [h1]
      · intro u hu
        rw [List.mem_cons] at hu
        rcases hu with rfl | hu
        · rw [ho _ (fun v hv => hdiff v hv)]
          cases hc : GoMap.get fs (tileFile P u) with
          | none => unfold GoMap.has at h1; rw [hc] at h1; cases h1
          | some c => rfl
        · exact hg u hu
      · intro n hn
        exact ho n fun u hu => hn u (by simp [hu])
    · rw [if_neg h1]
      have hnone : fs.get (tileFile P t) = none := by
        cases hc : GoMap.get fs (tileFile P t) with
        | none => rfl
        | some c => exfalso; apply h1; unfold GoMap.has; rw [hc]; rfl
      by_cases h2 : (vox t).white.length = 0
      · rw [if_pos h2]
        obtain ⟨fs', e, hg, ho⟩ := ih fs pf hnn' hnd'.2
        refine ⟨fs', ?_, ?_, ?_⟩
        · rw [e, List.filter_cons_of_neg]
          simp [h2]
        · intro u hu
          rw [List.mem_cons] at hu
          rcases hu with rfl | hu
          · rw [ho _ (fun v hv => hdiff v hv), hnone]
            exact (if_pos h2).symm
          · exact hg u hu
        · intro n hn
          exact ho n fun u hu => hn u (by simp [hu])
      · rw [if_neg h2]
        dsimp only
        rw [write_good (vox t) h2 (env t) (henv t)]
        dsimp only
        rw [if_pos rfl, trim_tilePrefix]
        obtain ⟨fs', e, hg, ho⟩ := ih (fs.set (tileFile P t) (tileBytes (vox t)))
          (pf ++ [tileSuffix t]) hnn' hnd'.2
        refine ⟨fs', ?_, ?_, ?_⟩
        · rw [e, List.filter_cons_of_pos (by simp [h1, h2])]
          have hfil : (ts.filter fun u => !GoMap.has (GoMap.set fs (tileFile P t) (tileBytes (vox t))) (tileFile P u)
              && decide ((vox u).white.length ≠ 0)) = ts.filter fun u => !fs.has (tileFile P u) &&
              decide ((vox u).white.length ≠ 0) := by
            apply List.filter_congr
            intro u hu
            rw [GoMap.has_set]
            simp [hdiff u hu]
          rw [hfil, List.map_cons, List.append_assoc, List.singleton_append]
        · intro u hu
          rw [List.mem_cons] at hu
          rcases hu with rfl | hu
          · rw [ho _ (fun v hv => hdiff v hv), GoMap.get_set, if_pos rfl, hnone]
            exact (if_neg h2).symm
          · have := hg u hu
            rw [GoMap.get_set, if_neg (hdiff u hu)] at this
            exact this
        · intro n hn
          rw [ho n fun u hu => hn u (by simp [hu]), GoMap.get_set,
            if_neg (fun h => hn t (by simp) h.symm)]

/-- Two results of voxelizing the same tile (possibly under different schedules) agree on their
    voxels and header, so their files are the same. -/
theorem voxelize_deterministic {F : Type} [GoFloat F] [FloatText F] (b : BinVOX F) (mesh : Mesh F)
    (o o' : BinVOX F) (h : VoxelizeRun b mesh (.ok o)) (h' : VoxelizeRun b mesh (.ok o')) :
    (∀ k, o.white.has k = true ↔ o'.white.has k = true) ∧ tileBytes o = tileBytes o' ∧
      (o.white.length = 0 ↔ o'.white.length = 0) := by
  have nz : ¬ zeroDim b := by
    intro hz
    unfold VoxelizeRun at h
    rw [if_pos hz] at h
    cases h
  obtain ⟨c, hc, hb, _, hh⟩ := voxelize_exact b mesh nz _ h
  injection hc with hc; subst hc
  obtain ⟨c, hc, hb', _, hh'⟩ := voxelize_exact b mesh nz _ h'
  injection hc with hc; subst hc
  have hk : ∀ k, o.white.has k = true ↔ o'.white.has k = true := by
    intro k; rw [hh, hh']
  have hlen : ∀ m : WhiteVoxelMap, m.length = 0 ↔ ∀ k, ¬ m.has k = true := by
    intro m
    cases m with
    | nil => simp
    | cons e m =>
      constructor
      · intro h; cases h
      · intro h
        exfalso
        refine h e.1 ?_
        unfold GoMap.has GoMap.get
        rw [if_pos rfl]; rfl
  refine ⟨hk, ?_, ?_⟩
  · unfold tileBytes
    rw [write_order_independent o' o ?_ ?_ ?_]
    · rw [hb, hb']; exact ⟨rfl, rfl, rfl⟩
    · rw [hb, hb']; exact ⟨rfl, rfl, rfl, rfl⟩
    · intro k; exact hk k
  · rw [hlen, hlen]
    simp only [hk]

/-- The tile's file content a job is supposed to leave: `none` for an empty tile. -/
noncomputable def tileContent {F : Type} [FloatText F] (b : BinVOX F) : Option Bytes :=
  if b.white.length = 0 then none else some (tileBytes b)

theorem mem_tileIndices_nonneg (nx ny nz : Int) : ∀ t ∈ tileIndices nx ny nz, 0 ≤ t.X ∧ 0 ≤ t.Y ∧ 0 ≤ t.Z := by
  intro t ht
  rw [mem_tileIndices] at ht
  unfold InDims at ht
  omega

/-- **C36/C37.** A job run where none of its files exist and all system calls work: it writes exactly
    the non-empty tiles, touches nothing else, and returns exactly their suffixes, without
    duplicates. -/
theorem dice_fresh {F : Type} [GoFloat F] [FloatText F] (mesh : Mesh F) (mbb : Box F) (L : Layout F)
    (nx ny nz : Int) (P : Bytes) (env : Key → FileEnv) (henv : ∀ t, GoodEnv (env t)) (fs : FS)
    (hfs : ∀ t ∈ tileIndices nx ny nz, fs.get (tileFile P t) = none)
    (out : FS × Option (List Bytes)) (h : DiceRun mesh mbb L nx ny nz P env fs out)
    (vox : Key → BinVOX F) (hv : ∀ t, VoxelizeRun (tileModel L mbb t) mesh (.ok (vox t))) :
    (∀ t ∈ tileIndices nx ny nz, out.1.get (tileFile P t) = tileContent (vox t)) ∧
    (∀ n, (∀ t ∈ tileIndices nx ny nz, n ≠ tileFile P t) → out.1.get n = fs.get n) ∧
    ∃ pf, out.2 = some pf ∧ pf.Nodup ∧
      pf = ((tileIndices nx ny nz).filter fun t => decide ((vox t).white.length ≠ 0)).map tileSuffix := by
  obtain ⟨v, hvox, rfl⟩ := h
  obtain ⟨fs', e, hg, ho⟩ := diceLoop_good P v env henv (tileIndices nx ny nz) fs []
    (mem_tileIndices_nonneg _ _ _) (tileIndices_nodup _ _ _)
  rw [e]
  have hdet := fun t => voxelize_deterministic _ mesh _ _ (hvox t) (hv t)
  refine ⟨?_, ho, _, rfl, ?_, ?_⟩
  · intro t ht
    show fs'.get _ = _
    rw [hg t ht, hfs t ht]
    unfold tileContent
    dsimp only
    by_cases h0 : (v t).white.length = 0
    · rw [if_pos h0, if_pos ((hdet t).2.2.mp h0)]
    · rw [if_neg h0, if_neg (fun h => h0 ((hdet t).2.2.mpr h)), (hdet t).2.1]
  · rw [List.nil_append]
    apply List.Nodup.map_on
    · intro t ht t' ht' hs
      exact tileSuffix_injective t t' (mem_tileIndices_nonneg _ _ _ t (List.mem_of_mem_filter ht))
        (mem_tileIndices_nonneg _ _ _ t' (List.mem_of_mem_filter ht')) hs
    · exact (tileIndices_nodup _ _ _).filter _
  · rw [List.nil_append]
    congr 1
    apply List.filter_congr
    intro t ht
    have : fs.has (tileFile P t) = false := by unfold GoMap.has; rw [hfs t ht]; rfl
    rw [this, Bool.not_false, Bool.true_and]
    exact decide_eq_decide.mpr (not_congr (hdet t).2.2)

/-- **C37.** A second run of the same job after a successful first one leaves every file as it is, but
    returns no prefixes at all: no commands are emitted for the tiles that exist. -/
theorem dice_rerun {F : Type} [GoFloat F] [FloatText F] (mesh : Mesh F) (mbb : Box F) (L : Layout F)
    (nx ny nz : Int) (P : Bytes) (env env' : Key → FileEnv) (henv : ∀ t, GoodEnv (env t))
    (henv' : ∀ t, GoodEnv (env' t)) (fs : FS)
    (out out' : FS × Option (List Bytes)) (h : DiceRun mesh mbb L nx ny nz P env fs out)
    (h' : DiceRun mesh mbb L nx ny nz P env' out.1 out') :
    (∀ n, out'.1.get n = out.1.get n) ∧ out'.2 = some [] := by
  obtain ⟨v, hvox, rfl⟩ := h
  obtain ⟨v', hvox', rfl⟩ := h'
  obtain ⟨fs1, e, hg, ho⟩ := diceLoop_good P v env henv (tileIndices nx ny nz) fs []
    (mem_tileIndices_nonneg _ _ _) (tileIndices_nodup _ _ _)
  rw [e]
  obtain ⟨fs2, e2, hg2, ho2⟩ := diceLoop_good P v' env' henv' (tileIndices nx ny nz) fs1 []
    (mem_tileIndices_nonneg _ _ _) (tileIndices_nodup _ _ _)
  rw [e2]
  have hdet := fun t => voxelize_deterministic _ mesh _ _ (hvox t) (hvox' t)
  constructor
  · intro n
    show fs2.get n = fs1.get n
    by_cases hn : ∃ t ∈ tileIndices nx ny nz, n = tileFile P t
    · obtain ⟨t, ht, rfl⟩ := hn
      rw [hg2 t ht]
      cases hc : GoMap.get fs1 (tileFile P t) with
      | some c => rfl
      | none =>
        have := hg t ht
        rw [hc] at this
        dsimp only
        by_cases h0 : (v' t).white.length = 0
        · rw [if_pos h0]
        · exfalso
          split at this
          · cases this
          · rw [if_neg (fun h => h0 ((hdet t).2.2.mp h))] at this
            cases this
    · push Not at hn
      exact ho2 n hn
  · show some ([] ++ _) = some []
    rw [List.nil_append]
    congr 1
    rw [List.map_eq_nil_iff, List.filter_eq_nil_iff]
    intro t ht hc
    rw [Bool.and_eq_true, decide_eq_true_eq, Bool.not_eq_true'] at hc
    have hnone : fs1.get (tileFile P t) = none := by
      have := hc.1
      unfold GoMap.has at this
      cases hg : GoMap.get fs1 (tileFile P t) with
      | none => rfl
      | some c => rw [hg] at this; cases this
    have := hg t ht
    rw [hnone] at this
    split at this
    · cases this
    · rw [if_neg (fun h => hc.2 ((hdet t).2.2.mp h))] at this
      cases this

/-- **C37.** Interrupted at any point between two tiles (after any initial part `ts₁` of the loop) and
    run again, a job ends with the same files as an uninterrupted run. -/
theorem dice_resume {F : Type} [GoFloat F] [FloatText F] (mesh : Mesh F) (mbb : Box F) (L : Layout F)
    (nx ny nz : Int) (P : Bytes) (env : Key → FileEnv) (henv : ∀ t, GoodEnv (env t)) (fs : FS)
    (vox vox' vox'' : Key → BinVOX F)
    (hv : ∀ t, VoxelizeRun (tileModel L mbb t) mesh (.ok (vox t)))
    (hv' : ∀ t, VoxelizeRun (tileModel L mbb t) mesh (.ok (vox' t)))
    (hv'' : ∀ t, VoxelizeRun (tileModel L mbb t) mesh (.ok (vox'' t)))
    (ts₁ ts₂ : List Key) (hts : ts₁ ++ ts₂ = tileIndices nx ny nz) (n : Bytes) :
    (diceLoop P vox' env (tileIndices nx ny nz) (diceLoop P vox env ts₁ fs []).1 []).1.get n =
      (diceLoop P vox'' env (tileIndices nx ny nz) fs []).1.get n := by
  have nn := mem_tileIndices_nonneg nx ny nz
  have nd := tileIndices_nodup nx ny nz
  have hsub : ∀ t ∈ ts₁, t ∈ tileIndices nx ny nz := by
    intro t ht; rw [← hts]; exact List.mem_append_left _ ht
  have nd1 : ts₁.Nodup := by rw [← hts] at nd; exact (List.nodup_append.mp nd).1
  obtain ⟨fs1, e1, hg1, ho1⟩ := diceLoop_good P vox env henv ts₁ fs []
    (fun t ht => nn t (hsub t ht)) nd1
  obtain ⟨fs2, e2, hg2, ho2⟩ := diceLoop_good P vox' env henv (tileIndices nx ny nz) fs1 [] nn nd
  obtain ⟨fs3, e3, hg3, ho3⟩ := diceLoop_good P vox'' env henv (tileIndices nx ny nz) fs [] nn nd
  have d1 := fun t => voxelize_deterministic _ mesh _ _ (hv t) (hv'' t)
  have d2 := fun t => voxelize_deterministic _ mesh _ _ (hv' t) (hv'' t)
  rw [e1, e2, e3]
  show fs2.get n = fs3.get n
  have cont : ∀ (a c : BinVOX F), tileBytes a = tileBytes c → (a.white.length = 0 ↔ c.white.length = 0) →
      (if a.white.length = 0 then none else some (tileBytes a)) =
      (if c.white.length = 0 then none else some (tileBytes c)) := by
    intro a c h1 h2
    by_cases h0 : a.white.length = 0
    · rw [if_pos h0, if_pos (h2.mp h0)]
    · rw [if_neg h0, if_neg (fun h => h0 (h2.mpr h)), h1]
  by_cases hn : ∃ t ∈ tileIndices nx ny nz, n = tileFile P t
  · obtain ⟨t, ht, rfl⟩ := hn
    rw [hg2 t ht, hg3 t ht]
    by_cases h1 : t ∈ ts₁
    · rw [hg1 t h1]
      cases hf : GoMap.get fs (tileFile P t) with
      | some c => rfl
      | none =>
        dsimp only
        by_cases h0 : (vox t).white.length = 0
        · rw [if_pos h0]
          exact cont _ _ (d2 t).2.1 (d2 t).2.2
        · rw [if_neg h0, if_neg (fun h => h0 ((d1 t).2.2.mpr h)), (d1 t).2.1]
    · rw [ho1 (tileFile P t) ?_]
      · cases hf : GoMap.get fs (tileFile P t) with
        | some c => rfl
        | none => exact cont _ _ (d2 t).2.1 (d2 t).2.2
      · intro u hu he
        have := (tileFile_injective P P t u (nn t ht) (nn u (hsub u hu)) he).2
        exact h1 (this ▸ hu)
  · push Not at hn
    rw [ho2 n hn, ho3 n hn]
    exact ho1 n (fun t ht => hn t (hsub t ht))

/-- The limit of resuming: whatever stands under a tile's name - e.g. the half-written file a failed
    or killed `Write` leaves - is kept by every later run, never repaired. -/
theorem dice_keeps_existing {F : Type} [FloatText F] (P : Bytes) (vox : Key → BinVOX F)
    (env : Key → FileEnv) (ts : List Key) : ∀ (fs : FS) (pf : List Bytes) (n : Bytes) (c : Bytes),
    fs.get n = some c → (diceLoop P vox env ts fs pf).1.get n = some c := by
  induction ts with
  | nil => intro fs pf n c h; exact h
  | cons t ts ih =>
    intro fs pf n c h
    unfold diceLoop
    by_cases h1 : fs.has (tileFile P t) = true
    · rw [if_pos h1]; exact ih fs pf n c h
    · rw [if_neg h1]
      by_cases h2 : (vox t).white.length = 0
      · rw [if_pos h2]; exact ih fs pf n c h
      · rw [if_neg h2]
        dsimp only
        have hne : tileFile P t ≠ n := by
          rintro rfl
          apply h1
          unfold GoMap.has; rw [h]; rfl
        have hset : GoMap.get (match ((vox t).Write (env t) ⟨0, 0, 0, 0, 0, 0⟩).1 with
            | none => fs
            | some c => GoMap.set fs (tileFile P t) c) n = some c := by
          cases ((vox t).Write (env t) ⟨0, 0, 0, 0, 0, 0⟩).1 with
          | none => exact h
          | some c' => dsimp only; rw [GoMap.get_set, if_neg hne]; exact h
        split
        · exact ih _ _ n c hset
        · exact hset

/-- A failed write leaves such a file: the error of the data write is returned but the file with
    only the header exists, and the next run skips it. -/
theorem dice_failed_write_left {F : Type} [FloatText F] (P : Bytes) (vox : Key → BinVOX F)
    (t : Key) (env : Key → FileEnv) (hne : (vox t).white.length ≠ 0)
    (he : env t = ⟨true, [.full, .fail 0], true⟩) :
    ∃ c, diceLoop P vox env [t] [] [] = ([(tileFile P t, c)], none) ∧
      c = headerBytes binvoxMagic (writeRegion (vox t).NX (vox t).NY (vox t).NZ wholeRegion).cx
        (writeRegion (vox t).NX (vox t).NY (vox t).NZ wholeRegion).cy
        (writeRegion (vox t).NX (vox t).NY (vox t).NZ wholeRegion).cz
        (vox t).TX (vox t).TY (vox t).TZ (vox t).Scale := by
  refine ⟨_, ?_, rfl⟩
  unfold diceLoop
  rw [if_neg (by simp), if_neg hne, he]
  unfold BinVOX.Write BinVOX.write
  simp [hne, Sink.write, GoMap.set, wholeRegion]

/-- **C35 end to end.** In exact arithmetic, for a job started without leftovers and with working
    system calls: voxel `l` of tile `t` can be read back from the tile's file (a missing file
    being an empty tile) iff the undiced model contains the corresponding voxel. -/
theorem dice_end_to_end [FloatText ℚ] [LawfulFloatText ℚ] (mbb : Box ℚ) (scale : ℚ)
    (dim nx ny nz : Int) (L : Layout ℚ)
    (h : layout mbb scale dim nx ny nz = .ok L) (hs : 0 < scale) (hd : 0 < dim)
    (px : 0 < L.dimX ∧ L.dimX ≤ maxInt) (py : 0 < L.dimY ∧ L.dimY ≤ maxInt)
    (pz : 0 < L.dimZ ∧ L.dimZ ≤ maxInt) (hnx : 0 < nx)
    (mesh : Mesh ℚ) (whole : BinVOX ℚ)
    (hw : VoxelizeRun (wholeModel L mbb nx ny nz) mesh (.ok whole))
    (P : Bytes) (env : Key → FileEnv) (henv : ∀ t, GoodEnv (env t)) (fs : FS)
    (hfs : ∀ t ∈ tileIndices nx ny nz, fs.get (tileFile P t) = none)
    (out : FS × Option (List Bytes)) (hrun : DiceRun mesh mbb L nx ny nz P env fs out)
    (t : Key) (ht : t ∈ tileIndices nx ny nz) (l : Key) (hl : InDims L.dimX L.dimY L.dimZ l) :
    (∃ (file : Bytes) (b' : BinVOX ℚ), out.1.get (tileFile P t) = some file ∧
        BinVOX.Read (some ⟨file, true⟩) wholeRegion = some b' ∧ Vox b' l) ↔
      Vox whole (l.shift (t.X * L.dimX) (t.Y * L.dimY) (t.Z * L.dimZ)) := by
  have hrun' := hrun
  obtain ⟨vox, hvox, _⟩ := hrun
  have hf := (dice_fresh mesh mbb L nx ny nz P env henv fs hfs out hrun' vox hvox).1 t ht
  have hsame := dice_same_voxels mbb scale dim nx ny nz L h hs hd px.1 py.1 pz.1 hnx mesh whole hw t ht
    (vox t) (hvox t) l hl
  have nz' : ¬ zeroDim (tileModel L mbb t) := by
    unfold zeroDim
    show ¬ (L.dimX = 0 ∨ L.dimY = 0 ∨ L.dimZ = 0)
    omega
  obtain ⟨c, hc, hb, _, _⟩ := voxelize_exact _ mesh nz' _ (hvox t)
  injection hc with hc; subst hc
  have hdim : (vox t).NX = L.dimX ∧ (vox t).NY = L.dimY ∧ (vox t).NZ = L.dimZ := by
    rw [hb]; exact ⟨rfl, rfl, rfl⟩
  have hVox : Vox whole (l.shift (t.X * L.dimX) (t.Y * L.dimY) (t.Z * L.dimZ)) ↔ (vox t).white.has l = true :=
    hsame.symm
  rw [hf, hVox]
  unfold tileContent
  by_cases h0 : (vox t).white.length = 0
  · rw [if_pos h0]
    constructor
    · rintro ⟨_, _, h, _⟩; cases h
    · intro hk
      have : (vox t).white = [] := List.length_eq_zero_iff.mp h0
      rw [this] at hk; cases hk
  · rw [if_neg h0]
    have hr := write_region_read (vox t) (fun h => h0 (by rw [h]; rfl)) wholeRegion
    have e : writeRegion (vox t).NX (vox t).NY (vox t).NZ wholeRegion =
        ⟨0, 0, 0, L.dimX, L.dimY, L.dimZ⟩ := by
      rw [hdim.1, hdim.2.1, hdim.2.2]; rfl
    dsimp only at hr
    rw [e] at hr
    obtain ⟨b', hrd, _, _, _, _, _, _, _, _, _, hv⟩ := hr ⟨le_of_lt px.1, px.2⟩ ⟨le_of_lt py.1, py.2⟩ ⟨le_of_lt pz.1, pz.2⟩
    have hv' : Vox b' l ↔ (vox t).white.has l = true := by
      rw [hv]
      have es : l.shift 0 0 0 = l := by
        obtain ⟨X, Y, Z⟩ := l
        simp [Key.shift]
      show InDims L.dimX L.dimY L.dimZ l ∧ Vox (vox t) (l.shift 0 0 0) ↔ _
      rw [es]
      exact ⟨fun h => h.2, fun h => ⟨hl, h⟩⟩
    constructor
    · rintro ⟨file, b2, e1, e2, e3⟩
      injection e1 with e1
      rw [← e1] at e2
      have : some b2 = some b' := e2.symm.trans hrd
      injection this with this
      rw [this] at e3
      exact hv'.mp e3
    · intro hk
      exact ⟨_, b', rfl, hrd, hv'.mpr hk⟩

/-! ## Examples: the files of the two walls -/

example := tileFile_injective (ascii "a-4-2-1-1") (ascii "a-4-2-1-1") ⟨1, 0, 0⟩ ⟨1, 0, 0⟩ (by decide) (by decide) rfl
example := job_files_distinct (ascii "a.stl") (ascii "a.stl") 4 2 1 1 4 2 1 1 ⟨1, 0, 0⟩ ⟨1, 0, 0⟩ (by decide) (by decide) (by decide) (by decide) rfl

/-- A disk without faults. -/
def goodDisk : Key → FileEnv := fun _ => ⟨true, [], true⟩

theorem goodDisk_good (t : Key) : GoodEnv (goodDisk t) := ⟨rfl, rfl, fun _ h => (List.not_mem_nil h).elim⟩

theorem wall_dice_run [FloatText ℚ] (P : Bytes) (fs : FS) : ∃ out, DiceRun wallMesh wallBox wallLayout 2 1 1 P goodDisk fs out := by
  choose vox hv using wall_tiles
  exact ⟨_, vox, hv, rfl⟩

/-- `dice_fresh`, `dice_rerun`, `dice_resume` and `dice_end_to_end` on the two walls, diced twice into an empty directory. -/
example : ∃ (out out' : FS × Option (List Bytes)) (whole : BinVOX ℚ),
    DiceRun wallMesh wallBox wallLayout 2 1 1 (ascii "a") goodDisk [] out ∧
    DiceRun wallMesh wallBox wallLayout 2 1 1 (ascii "a") goodDisk out.1 out' ∧ out'.2 = some [] ∧
    VoxelizeRun (wholeModel wallLayout wallBox 2 1 1) wallMesh (.ok whole) ∧ Vox whole ⟨2, 1, 1⟩ ∧
    ∃ (file : Bytes) (b' : BinVOX ℚ), out.1.get (tileFile (ascii "a") ⟨1, 0, 0⟩) = some file ∧
      BinVOX.Read (some ⟨file, true⟩) wholeRegion = some b' ∧ Vox b' ⟨0, 1, 1⟩ := by
  obtain ⟨out, h⟩ := wall_dice_run (ascii "a") []
  obtain ⟨out', h'⟩ := wall_dice_run (ascii "a") out.1
  obtain ⟨whole, hw⟩ := wall_whole
  choose vox hv using wall_tiles
  have h1 := dice_fresh wallMesh wallBox wallLayout 2 1 1 (ascii "a") goodDisk goodDisk_good [] (fun _ _ => rfl) out h vox hv
  have h2 := dice_resume wallMesh wallBox wallLayout 2 1 1 (ascii "a") goodDisk goodDisk_good [] vox vox vox hv hv hv [⟨0, 0, 0⟩] [⟨1, 0, 0⟩]
    (by decide) (tileFile (ascii "a") ⟨1, 0, 0⟩)
  have hk : Vox whole ⟨2, 1, 1⟩ := by
    obtain ⟨c, hc, -, -, hk⟩ := voxelize_exact _ _ (by decide) _ hw
    cases hc
    exact (hk ⟨2, 1, 1⟩).mpr ⟨by decide, by decide,
      ((sliceRows_mem (wholeModel wallLayout wallBox 2 1 1) wallMesh 1 ⟨2, 1, 1⟩).mp (by decide +kernel)).2⟩
  exact ⟨out, out', whole, h, h',
    (dice_rerun wallMesh wallBox wallLayout 2 1 1 (ascii "a") goodDisk goodDisk goodDisk_good goodDisk_good [] out out' h h').2, hw, hk,
    (dice_end_to_end wallBox 4 4 2 1 1 wallLayout wall_layout (by decide +kernel) (by decide) (by decide) (by decide) (by decide) (by decide)
      wallMesh whole hw (ascii "a") goodDisk goodDisk_good [] (fun _ _ => rfl) out h ⟨1, 0, 0⟩ (by decide) ⟨0, 1, 1⟩ (by unfold InDims; decide)).mpr hk⟩

/-- A file that is there is kept, whatever it holds. -/
example := dice_keeps_existing (ascii "a") (fun _ => exModel) goodDisk [⟨0, 0, 0⟩] [(tileFile (ascii "a") ⟨0, 0, 0⟩, [1, 2])] []
  (tileFile (ascii "a") ⟨0, 0, 0⟩) [1, 2] (by decide)

/-- The second write of the tile file fails: the header stays. -/
example := dice_failed_write_left (ascii "a") (fun _ => exModel) ⟨0, 0, 0⟩ (fun _ => ⟨true, [.full, .fail 0], true⟩) (by decide) rfl

end StlDice
