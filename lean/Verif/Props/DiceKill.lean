import Verif.Model.DiceKill
import Verif.Props.DiceFiles

/-! # C126: a dice job killed at any moment, any number of times, and run again -/

namespace StlDice
open GoFloat BinVOX Spec

variable {F : Type}

theorem has_false_iff (fs : FS) (n : Bytes) : fs.has n = false ↔ fs.get n = none := by
  unfold GoMap.has
  cases fs.get n <;> simp

/-- One moment of one run: at most one tile file is torn. -/
theorem moment_state [FloatText F] (P : Bytes) (vox : Key → BinVOX F) {ts : List Key} {fs fs' : FS}
    (h : DiceMoment P vox ts fs fs') :
    (∀ t ∈ ts, 0 ≤ t.X ∧ 0 ≤ t.Y ∧ 0 ≤ t.Z) → ts.Nodup →
    (∀ n, (∀ t ∈ ts, n ≠ tileFile P t) → fs'.get n = fs.get n) ∧
    ∃ bad : List Key, bad.length ≤ 1 ∧ ∀ t ∈ ts, fs'.get (tileFile P t) = fs.get (tileFile P t) ∨
      (fs.get (tileFile P t) = none ∧ (vox t).white.length ≠ 0 ∧
        (fs'.get (tileFile P t) = some (tileBytes (vox t)) ∨
          t ∈ bad ∧ ∃ k : Nat, fs'.get (tileFile P t) = some ((tileBytes (vox t)).take k))) := by
  induction h with
  | now ts fs => intro _ _; exact ⟨fun _ _ => rfl, [], by simp, fun t _ => Or.inl rfl⟩
  | @existing t ts fs fs' h1 hm ih =>
    intro hnn hnd
    obtain ⟨ho, bad, hb, hs⟩ := ih (fun u hu => hnn u (by simp [hu])) (List.nodup_cons.mp hnd).2
    refine ⟨fun n hn => ho n fun u hu => hn u (by simp [hu]), bad, hb, ?_⟩
    intro u hu
    rcases List.mem_cons.mp hu with rfl | hu
    · left
      apply ho
      intro v hv he
      have := (tileFile_injective P P u v (hnn u (by simp)) (hnn v (by simp [hv])) he).2
      exact (List.nodup_cons.mp hnd).1 (this ▸ hv)
    · exact hs u hu
  | @empty t ts fs fs' h1 h2 hm ih =>
    intro hnn hnd
    obtain ⟨ho, bad, hb, hs⟩ := ih (fun u hu => hnn u (by simp [hu])) (List.nodup_cons.mp hnd).2
    refine ⟨fun n hn => ho n fun u hu => hn u (by simp [hu]), bad, hb, ?_⟩
    intro u hu
    rcases List.mem_cons.mp hu with rfl | hu
    · left
      apply ho
      intro v hv he
      have := (tileFile_injective P P u v (hnn u (by simp)) (hnn v (by simp [hv])) he).2
      exact (List.nodup_cons.mp hnd).1 (this ▸ hv)
    · exact hs u hu
  | @writing t ts fs n h1 h2 =>
    intro hnn hnd
    refine ⟨fun m hm => ?_, [t], by simp, ?_⟩
    · rw [GoMap.get_set, if_neg (fun h => hm t (by simp) h.symm)]
    · intro u hu
      rcases List.mem_cons.mp hu with rfl | hu
      · refine Or.inr ⟨(has_false_iff _ _).mp h1, h2, Or.inr ⟨by simp, n, ?_⟩⟩
        rw [GoMap.get_set, if_pos rfl]
        rfl
      · left
        rw [GoMap.get_set, if_neg]
        intro he
        have := (tileFile_injective P P t u (hnn t (by simp)) (hnn u (by simp [hu])) he).2
        exact (List.nodup_cons.mp hnd).1 (this ▸ hu)
  | @written t ts fs fs' h1 h2 hm ih =>
    intro hnn hnd
    obtain ⟨ho, bad, hb, hs⟩ := ih (fun u hu => hnn u (by simp [hu])) (List.nodup_cons.mp hnd).2
    have hdiff : ∀ v ∈ ts, tileFile P t ≠ tileFile P v := by
      intro v hv he
      have := (tileFile_injective P P t v (hnn t (by simp)) (hnn v (by simp [hv])) he).2
      exact (List.nodup_cons.mp hnd).1 (this ▸ hv)
    refine ⟨fun n hn => ?_, bad, hb, ?_⟩
    · rw [ho n fun u hu => hn u (by simp [hu]), GoMap.get_set, if_neg (fun h => hn t (by simp) h.symm)]
    · intro u hu
      rcases List.mem_cons.mp hu with rfl | hu
      · refine Or.inr ⟨(has_false_iff _ _).mp h1, h2, Or.inl ?_⟩
        rw [ho _ hdiff, GoMap.get_set, if_pos rfl]
        rfl
      · have := hs u hu
        rw [GoMap.get_set, if_neg (hdiff u hu)] at this
        exact this

/-- **C126.** What `n` killed runs of one job leave behind.  Apart from the job's tile files everything is as before.
    A tile file that was there is untouched; one that was not is missing, or complete, or - for at most `n` tiles, one
    per kill - holds the first bytes of its complete content.  No empty tile has a file. -/
theorem dice_killed [GoFloat F] [FloatText F] (mesh : Mesh F) (mbb : Box F) (L : Layout F) (nx ny nz : Int) (P : Bytes)
    {n : Nat} {fs fs' : FS} (h : KilledRuns mesh mbb L nx ny nz P n fs fs')
    (vox : Key → BinVOX F) (hv : ∀ t, VoxelizeRun (tileModel L mbb t) mesh (.ok (vox t))) :
    (∀ f, (∀ t ∈ tileIndices nx ny nz, f ≠ tileFile P t) → fs'.get f = fs.get f) ∧
    ∃ bad : List Key, bad.length ≤ n ∧ ∀ t ∈ tileIndices nx ny nz,
      fs'.get (tileFile P t) = fs.get (tileFile P t) ∨
      (fs.get (tileFile P t) = none ∧ (vox t).white.length ≠ 0 ∧
        (fs'.get (tileFile P t) = some (tileBytes (vox t)) ∨
          t ∈ bad ∧ ∃ k : Nat, fs'.get (tileFile P t) = some ((tileBytes (vox t)).take k))) := by
  induction h with
  | none fs => exact ⟨fun _ _ => rfl, [], by simp, fun t _ => Or.inl rfl⟩
  | @again n fs fs₁ fs₂ v hk hvx hm ih =>
    obtain ⟨ho, bad, hb, hs⟩ := ih
    obtain ⟨ho', bad', hb', hs'⟩ := moment_state P v hm (mem_tileIndices_nonneg _ _ _) (tileIndices_nodup _ _ _)
    have hdet := fun t => voxelize_deterministic _ mesh _ _ (hvx t) (hv t)
    refine ⟨fun f hf => by rw [ho' f hf, ho f hf], bad ++ bad', by rw [List.length_append]; omega, ?_⟩
    intro t ht
    rcases hs' t ht with e | ⟨e, hne, hc⟩
    · rcases hs t ht with e1 | ⟨e1, hne, hc⟩
      · left; rw [e, e1]
      · right
        refine ⟨e1, hne, ?_⟩
        rcases hc with hc | ⟨hc, k, hk⟩
        · left; rw [e, hc]
        · right; exact ⟨List.mem_append_left _ hc, k, by rw [e, hk]⟩
    · have e1 : fs.get (tileFile P t) = none := by
        rcases hs t ht with e1 | ⟨e1, -, -⟩
        · rw [← e1, e]
        · exact e1
      right
      refine ⟨e1, fun h0 => hne ((hdet t).2.2.mpr h0), ?_⟩
      rw [← (hdet t).2.1]
      rcases hc with hc | ⟨hc, k, hk⟩
      · exact Or.inl hc
      · exact Or.inr ⟨List.mem_append_right _ hc, k, hk⟩

/-- **C126.** Run again, and this time to the end: the run reports success, but every torn file stays torn; all other tiles of
    a job that began without tile files are complete (an empty tile has no file).  It returns the tiles that had no
    file when it started, and no others: the torn tiles, like those written before a kill, are in no command of its script. -/
theorem dice_after_kills [GoFloat F] [FloatText F] (mesh : Mesh F) (mbb : Box F) (L : Layout F) (nx ny nz : Int) (P : Bytes)
    {n : Nat} {fs fs' : FS} (h : KilledRuns mesh mbb L nx ny nz P n fs fs')
    (vox : Key → BinVOX F) (hv : ∀ t, VoxelizeRun (tileModel L mbb t) mesh (.ok (vox t)))
    (hfs : ∀ t ∈ tileIndices nx ny nz, fs.get (tileFile P t) = none)
    (env : Key → FileEnv) (henv : ∀ t, GoodEnv (env t)) (out : FS × Option (List Bytes))
    (hrun : DiceRun mesh mbb L nx ny nz P env fs' out) :
    (∀ f, (∀ t ∈ tileIndices nx ny nz, f ≠ tileFile P t) → out.1.get f = fs.get f) ∧
    (∃ bad : List Key, bad.length ≤ n ∧
      (∀ t ∈ tileIndices nx ny nz, t ∉ bad → out.1.get (tileFile P t) = tileContent (vox t)) ∧
      ∀ t ∈ tileIndices nx ny nz, t ∈ bad → (vox t).white.length ≠ 0 ∧
        ∃ k : Nat, fs'.get (tileFile P t) = some ((tileBytes (vox t)).take k) ∧
          out.1.get (tileFile P t) = some ((tileBytes (vox t)).take k)) ∧
    ∃ pf, out.2 = some pf ∧ ∀ s, s ∈ pf ↔ ∃ t ∈ tileIndices nx ny nz, s = tileSuffix t ∧
      fs'.get (tileFile P t) = none ∧ (vox t).white.length ≠ 0 := by
  obtain ⟨ho, bad, hb, hs⟩ := dice_killed mesh mbb L nx ny nz P h vox hv
  obtain ⟨v, hvox, rfl⟩ := hrun
  obtain ⟨fs2, e, hg, ho2⟩ := diceLoop_good P v env henv (tileIndices nx ny nz) fs' []
    (mem_tileIndices_nonneg _ _ _) (tileIndices_nodup _ _ _)
  have hdet := fun t => voxelize_deterministic _ mesh _ _ (hvox t) (hv t)
  rw [e]
  classical
  refine ⟨fun f hf => (ho2 f hf).trans (ho f hf),
    ⟨bad.filter fun t => decide (t ∈ tileIndices nx ny nz ∧ fs'.get (tileFile P t) ≠ none ∧
      fs'.get (tileFile P t) ≠ some (tileBytes (vox t))), (List.length_filter_le _ _).trans hb, ?_, ?_⟩, _, rfl, ?_⟩
  · intro t ht htb
    show fs2.get _ = _
    rw [hg t ht]
    unfold tileContent
    have hcase : fs'.get (tileFile P t) = none ∨
        (fs'.get (tileFile P t) = some (tileBytes (vox t)) ∧ (vox t).white.length ≠ 0) := by
      rcases hs t ht with e1 | ⟨-, hne, hc | ⟨hc, k, hk⟩⟩
      · left; rw [e1, hfs t ht]
      · exact Or.inr ⟨hc, hne⟩
      · by_cases hfull : fs'.get (tileFile P t) = some (tileBytes (vox t))
        · exact Or.inr ⟨hfull, hne⟩
        · exfalso
          apply htb
          rw [List.mem_filter, decide_eq_true_eq]
          exact ⟨hc, ht, (by rw [hk]; exact nofun), hfull⟩
    rcases hcase with e1 | ⟨e1, hne⟩
    · rw [e1]
      dsimp only
      by_cases h0 : (v t).white.length = 0
      · rw [if_pos h0, if_pos ((hdet t).2.2.mp h0)]
      · rw [if_neg h0, if_neg (fun h => h0 ((hdet t).2.2.mpr h)), (hdet t).2.1]
    · rw [e1, if_neg hne]
  · intro t ht htb
    rw [List.mem_filter, decide_eq_true_eq] at htb
    obtain ⟨-, -, h1, h2⟩ := htb
    rcases hs t ht with e1 | ⟨-, hne, hc | ⟨hc, k, hk⟩⟩
    · exact absurd (e1.trans (hfs t ht)) h1
    · exact absurd hc h2
    · refine ⟨hne, k, hk, ?_⟩
      show fs2.get _ = _
      rw [hg t ht, hk]
  · intro s
    rw [List.nil_append, List.mem_map]
    constructor
    · rintro ⟨t, ht, rfl⟩
      rw [List.mem_filter, Bool.and_eq_true, decide_eq_true_eq, Bool.not_eq_true'] at ht
      exact ⟨t, ht.1, rfl, (has_false_iff _ _).mp ht.2.1, fun h0 => ht.2.2 ((hdet t).2.2.mpr h0)⟩
    · rintro ⟨t, ht, rfl, h1, h2⟩
      refine ⟨t, ?_, rfl⟩
      rw [List.mem_filter, Bool.and_eq_true, decide_eq_true_eq, Bool.not_eq_true']
      exact ⟨ht, (has_false_iff _ _).mpr h1, fun h0 => h2 ((hdet t).2.2.mp h0)⟩

/-- **C126.** In voxels (exact arithmetic): after `n` kills and a complete run, all tiles but at most `n` hold exactly the
    voxels of the undiced model, and those few cannot be read or hold some of them, never a wrong one. -/
theorem dice_killed_voxels [FloatText ℚ] [LawfulFloatText ℚ] (mbb : Box ℚ) (scale : ℚ)
    (dim nx ny nz : Int) (L : Layout ℚ)
    (h : layout mbb scale dim nx ny nz = .ok L) (hs : 0 < scale) (hd : 0 < dim)
    (px : 0 < L.dimX ∧ L.dimX ≤ maxInt) (py : 0 < L.dimY ∧ L.dimY ≤ maxInt)
    (pz : 0 < L.dimZ ∧ L.dimZ ≤ maxInt) (hnx : 0 < nx)
    (mesh : Mesh ℚ) (whole : BinVOX ℚ)
    (hw : VoxelizeRun (wholeModel L mbb nx ny nz) mesh (.ok whole))
    (P : Bytes) (fs fs' : FS) (hfs : ∀ t ∈ tileIndices nx ny nz, fs.get (tileFile P t) = none)
    (n : Nat) (hk : KilledRuns mesh mbb L nx ny nz P n fs fs')
    (env : Key → FileEnv) (henv : ∀ t, GoodEnv (env t))
    (out : FS × Option (List Bytes)) (hrun : DiceRun mesh mbb L nx ny nz P env fs' out) :
    ∃ bad : List Key, bad.length ≤ n ∧ ∀ t ∈ tileIndices nx ny nz, ∀ l, InDims L.dimX L.dimY L.dimZ l →
      (∀ (file : Bytes) (b' : BinVOX ℚ), out.1.get (tileFile P t) = some file →
        BinVOX.Read (some ⟨file, true⟩) wholeRegion = some b' → Vox b' l →
        Vox whole (l.shift (t.X * L.dimX) (t.Y * L.dimY) (t.Z * L.dimZ))) ∧
      (t ∉ bad → Vox whole (l.shift (t.X * L.dimX) (t.Y * L.dimY) (t.Z * L.dimZ)) →
        ∃ (file : Bytes) (b' : BinVOX ℚ), out.1.get (tileFile P t) = some file ∧
          BinVOX.Read (some ⟨file, true⟩) wholeRegion = some b' ∧ Vox b' l) := by
  obtain ⟨vox, hvox, -⟩ := id hrun
  have fresh : DiceRun mesh mbb L nx ny nz P env fs
      (diceLoop P vox env (tileIndices nx ny nz) fs []) := ⟨vox, hvox, rfl⟩
  obtain ⟨-, ⟨bad, hb, hgood, htorn⟩, -⟩ := dice_after_kills mesh mbb L nx ny nz P hk vox hvox hfs env henv out hrun
  have hfr := (dice_fresh mesh mbb L nx ny nz P env henv fs hfs _ fresh vox hvox).1
  refine ⟨bad, hb, ?_⟩
  intro t ht l hl
  have hee := dice_end_to_end mbb scale dim nx ny nz L h hs hd px py pz hnx mesh whole hw P env henv fs hfs _ fresh t ht l hl
  rw [hfr t ht] at hee
  by_cases hbad : t ∈ bad
  · obtain ⟨hne, k, -, hk⟩ := htorn t ht hbad
    refine ⟨?_, fun hn => absurd hbad hn⟩
    intro file b' e1 e2 e3
    rw [hk] at e1
    injection e1 with e1
    subst e1
    have nz' : ¬ zeroDim (tileModel L mbb t) := by
      unfold zeroDim
      show ¬ (L.dimX = 0 ∨ L.dimY = 0 ∨ L.dimZ = 0)
      omega
    obtain ⟨c, hc, hbx, _, _⟩ := voxelize_exact _ mesh nz' _ (hvox t)
    injection hc with hc; subst hc
    have hdim : (vox t).NX = L.dimX ∧ (vox t).NY = L.dimY ∧ (vox t).NZ = L.dimZ := by
      rw [hbx]; exact ⟨rfl, rfl, rfl⟩
    have hwne : (vox t).white ≠ [] := fun h0 => hne (by rw [h0]; rfl)
    have bx : 0 ≤ (vox t).NX ∧ (vox t).NX ≤ maxInt := by rw [hdim.1]; exact ⟨le_of_lt px.1, px.2⟩
    have by' : 0 ≤ (vox t).NY ∧ (vox t).NY ≤ maxInt := by rw [hdim.2.1]; exact ⟨le_of_lt py.1, py.2⟩
    have bz : 0 ≤ (vox t).NZ ∧ (vox t).NZ ≤ maxInt := by rw [hdim.2.2]; exact ⟨le_of_lt pz.1, pz.2⟩
    have htr := (write_truncated (vox t) hwne bx by' bz k true b' e2).2.2.2.2.2.2.2 l e3
    exact (dice_same_voxels mbb scale dim nx ny nz L h hs hd px.1 py.1 pz.1 hnx mesh whole hw t ht (vox t) (hvox t) l hl).mp
      htr.1
  · rw [hgood t ht hbad]
    refine ⟨fun file b' e1 e2 e3 => hee.mp ⟨file, b', e1, e2, e3⟩, fun _ hv => hee.mpr hv⟩

/-! ## The moments are the code's own -/

/-- When the header write works, what `Write` leaves is nothing, or the first bytes of the whole file; and the whole file
    if it reports success. -/
theorem write_left [FloatText F] (b : BinVOX F) (hne : b.white.length ≠ 0) (e : FileEnv)
    (he : e.plan = [] ∨ ∃ pl, e.plan = WOut.full :: pl) :
    (b.Write e ⟨0, 0, 0, 0, 0, 0⟩ = (none, false)) ∨
    ∃ k : Nat, (b.Write e ⟨0, 0, 0, 0, 0, 0⟩).1 = some ((wholeTileFile b).take k) ∧
      ((b.Write e ⟨0, 0, 0, 0, 0, 0⟩).2 = true → (b.Write e ⟨0, 0, 0, 0, 0, 0⟩).1 = some (wholeTileFile b)) := by
  obtain ⟨c, plan, cl⟩ := e
  dsimp only at he
  unfold BinVOX.Write wholeTileFile BinVOX.write
  cases c with
  | false => left; rfl
  | true =>
    right
    simp only [if_neg hne, Bool.not_true, Bool.false_eq_true, if_false]
    have full : ∀ xs : Bytes, ∃ k : Nat, some xs = some (xs.take k) :=
      fun xs => ⟨xs.length, by rw [List.take_length]⟩
    rcases he with rfl | ⟨pl, rfl⟩
    · simp only [Sink.write, List.nil_append, if_true]
      obtain ⟨k, hk⟩ := full (headerBytes binvoxMagic (writeRegion b.NX b.NY b.NZ ⟨0, 0, 0, 0, 0, 0⟩).cx
        (writeRegion b.NX b.NY b.NZ ⟨0, 0, 0, 0, 0, 0⟩).cy (writeRegion b.NX b.NY b.NZ ⟨0, 0, 0, 0, 0, 0⟩).cz
        b.TX b.TY b.TZ b.Scale ++ (encodeRuns b.white (writeRegion b.NX b.NY b.NZ ⟨0, 0, 0, 0, 0, 0⟩)).flatMap runBytes)
      exact ⟨k, hk, fun _ => trivial⟩
    · rcases pl with - | ⟨(- | k), pl⟩
      · simp only [Sink.write, List.nil_append, if_true]
        obtain ⟨k, hk⟩ := full (headerBytes binvoxMagic (writeRegion b.NX b.NY b.NZ ⟨0, 0, 0, 0, 0, 0⟩).cx
          (writeRegion b.NX b.NY b.NZ ⟨0, 0, 0, 0, 0, 0⟩).cy (writeRegion b.NX b.NY b.NZ ⟨0, 0, 0, 0, 0, 0⟩).cz
          b.TX b.TY b.TZ b.Scale ++ (encodeRuns b.white (writeRegion b.NX b.NY b.NZ ⟨0, 0, 0, 0, 0, 0⟩)).flatMap runBytes)
        exact ⟨k, hk, fun _ => trivial⟩
      · simp only [Sink.write, List.nil_append, if_true]
        obtain ⟨k, hk⟩ := full (headerBytes binvoxMagic (writeRegion b.NX b.NY b.NZ ⟨0, 0, 0, 0, 0, 0⟩).cx
          (writeRegion b.NX b.NY b.NZ ⟨0, 0, 0, 0, 0, 0⟩).cy (writeRegion b.NX b.NY b.NZ ⟨0, 0, 0, 0, 0, 0⟩).cz
          b.TX b.TY b.TZ b.Scale ++ (encodeRuns b.white (writeRegion b.NX b.NY b.NZ ⟨0, 0, 0, 0, 0, 0⟩)).flatMap runBytes)
        exact ⟨k, hk, fun _ => trivial⟩
      · simp only [Sink.write, List.nil_append, Bool.false_eq_true, if_false, if_true]
        refine ⟨(headerBytes binvoxMagic (writeRegion b.NX b.NY b.NZ ⟨0, 0, 0, 0, 0, 0⟩).cx
          (writeRegion b.NX b.NY b.NZ ⟨0, 0, 0, 0, 0, 0⟩).cy (writeRegion b.NX b.NY b.NZ ⟨0, 0, 0, 0, 0, 0⟩).cz
          b.TX b.TY b.TZ b.Scale).length + k, ?_, fun h => by cases h⟩
        rw [List.take_length_add_append]

/-- **C126.** A run that ends by itself - successfully, or with an error of creating, writing the data of or closing a file -
    also leaves one of these moments: the claims about kills hold for runs that failed in this way too. -/
theorem run_is_moment [FloatText F] (P : Bytes) (vox : Key → BinVOX F) (env : Key → FileEnv)
    (henv : ∀ t, (env t).plan = [] ∨ ∃ pl, (env t).plan = WOut.full :: pl) (ts : List Key) :
    ∀ (fs : FS) (pf : List Bytes), DiceMoment P vox ts fs (diceLoop P vox env ts fs pf).1 := by
  induction ts with
  | nil => intro fs pf; exact .now _ _
  | cons t ts ih =>
    intro fs pf
    unfold diceLoop
    cases h1 : fs.has (tileFile P t) with
    | true => rw [if_pos rfl]; exact .existing h1 (ih _ _)
    | false =>
      rw [if_neg (by simp)]
      by_cases h2 : (vox t).white.length = 0
      · rw [if_pos h2]; exact .empty h1 h2 (ih _ _)
      · rw [if_neg h2]
        dsimp only
        rcases write_left (vox t) h2 (env t) (henv t) with e | ⟨k, hk, hfull⟩
        · rw [e]
          dsimp only
          rw [if_neg (by simp)]
          exact .now _ _
        · by_cases hok : ((vox t).Write (env t) ⟨0, 0, 0, 0, 0, 0⟩).2 = true
          · rw [if_pos hok, hfull hok]
            exact .written h1 h2 (ih _ _)
          · rw [if_neg hok, hk]
            exact .writing k h1 h2

/-- **C126.** And every kill of the claim can happen: whatever tile with voxels has no file yet, a kill can leave it
    with just its first `k` bytes. -/
theorem dice_kill_possible [GoFloat F] [FloatText F] (mesh : Mesh F) (mbb : Box F) (L : Layout F) (nx ny nz : Int)
    (P : Bytes) {n : Nat} {fs fs' : FS} (h : KilledRuns mesh mbb L nx ny nz P n fs fs')
    (vox : Key → BinVOX F) (hv : ∀ t, VoxelizeRun (tileModel L mbb t) mesh (.ok (vox t)))
    (t : Key) (ht : t ∈ tileIndices nx ny nz) (hnone : fs'.get (tileFile P t) = none)
    (hne : (vox t).white.length ≠ 0) (k : Nat) :
    ∃ fs'', KilledRuns mesh mbb L nx ny nz P (n + 1) fs fs'' ∧
      fs''.get (tileFile P t) = some ((tileBytes (vox t)).take k) := by
  have reach : ∀ (ts : List Key) (fs : FS), (∀ u ∈ ts, 0 ≤ u.X ∧ 0 ≤ u.Y ∧ 0 ≤ u.Z) → ts.Nodup → t ∈ ts →
      fs.get (tileFile P t) = none →
      ∃ fs'', DiceMoment P vox ts fs fs'' ∧ fs''.get (tileFile P t) = some ((tileBytes (vox t)).take k) := by
    intro ts
    induction ts with
    | nil => intro fs _ _ h; cases h
    | cons u ts ih =>
      intro fs hnn hnd hmem hno
      by_cases hut : u = t
      · subst hut
        exact ⟨_, .writing k ((has_false_iff _ _).mpr hno) hne, by rw [GoMap.get_set, if_pos rfl]; rfl⟩
      · have htm : t ∈ ts := by
          rcases List.mem_cons.mp hmem with e | e
          · exact absurd e.symm hut
          · exact e
        have hnn' : ∀ w ∈ ts, 0 ≤ w.X ∧ 0 ≤ w.Y ∧ 0 ≤ w.Z := fun w hw => hnn w (by simp [hw])
        have hnd' := (List.nodup_cons.mp hnd).2
        cases h1 : fs.has (tileFile P u) with
        | true =>
          obtain ⟨f, hm, hf⟩ := ih fs hnn' hnd' htm hno
          exact ⟨f, .existing h1 hm, hf⟩
        | false =>
          by_cases h2 : (vox u).white.length = 0
          · obtain ⟨f, hm, hf⟩ := ih fs hnn' hnd' htm hno
            exact ⟨f, .empty h1 h2 hm, hf⟩
          · obtain ⟨f, hm, hf⟩ := ih (fs.set (tileFile P u) (wholeTileFile (vox u))) hnn' hnd' htm (by
              rw [GoMap.get_set, if_neg, hno]
              intro he
              exact hut (tileFile_injective P P u t (hnn u (by simp)) (hnn' t htm) he).2)
            exact ⟨f, .written h1 h2 hm, hf⟩
  obtain ⟨f, hm, hf⟩ := reach _ fs' (mem_tileIndices_nonneg _ _ _) (tileIndices_nodup _ _ _) ht hnone
  exact ⟨f, .again vox h hv hm, hf⟩

/-! ## Example: the two walls, killed twice -/

theorem wall_tiles_nonempty (vox : Key → BinVOX ℚ)
    (hv : ∀ t, VoxelizeRun (tileModel wallLayout wallBox t) wallMesh (.ok (vox t))) :
    (vox ⟨0, 0, 0⟩).white.length ≠ 0 ∧ (vox ⟨1, 0, 0⟩).white.length ≠ 0 := by
  have key : ∀ (t l : Key), (¬ zeroDim (tileModel wallLayout wallBox t)) →
      (Vox (vox t) l) → (vox t).white.length ≠ 0 := by
    intro t l _ hl h0
    have : (vox t).white = [] := List.length_eq_zero_iff.mp h0
    unfold Vox at hl
    rw [this] at hl
    cases hl
  constructor
  · obtain ⟨c, hc, -, -, hk⟩ := voxelize_exact _ _ (by decide) _ (hv ⟨0, 0, 0⟩)
    injection hc with hc
    refine key ⟨0, 0, 0⟩ ⟨1, 1, 1⟩ (by decide) ?_
    unfold Vox
    rw [hc, hk]
    exact ⟨by decide, by decide,
      ((sliceRows_mem (tileModel wallLayout wallBox ⟨0, 0, 0⟩) wallMesh 1 ⟨1, 1, 1⟩).mp (by decide +kernel)).2⟩
  · obtain ⟨c, hc, -, -, hk⟩ := voxelize_exact _ _ (by decide) _ (hv ⟨1, 0, 0⟩)
    injection hc with hc
    refine key ⟨1, 0, 0⟩ ⟨0, 1, 1⟩ (by decide) ?_
    unfold Vox
    rw [hc, hk]
    exact ⟨by decide, by decide,
      ((sliceRows_mem (tileModel wallLayout wallBox ⟨1, 0, 0⟩) wallMesh 1 ⟨0, 1, 1⟩).mp (by decide +kernel)).2⟩

/-- Killed in the first tile, run again and killed in the second: the third run succeeds, says it had nothing to do,
    and both files stay three bytes long. -/
theorem wall_two_kills [FloatText ℚ] : ∃ (fs' : FS) (out : FS × Option (List Bytes)),
    KilledRuns wallMesh wallBox wallLayout 2 1 1 (ascii "a") 2 [] fs' ∧
    DiceRun wallMesh wallBox wallLayout 2 1 1 (ascii "a") goodDisk fs' out ∧ out.2 = some [] ∧
    out.1.get (tileFile (ascii "a") ⟨0, 0, 0⟩) = some (ascii "#bi") ∧
    out.1.get (tileFile (ascii "a") ⟨1, 0, 0⟩) = some (ascii "#bi") := by
  choose vox hv using wall_tiles
  obtain ⟨n0, n1⟩ := wall_tiles_nonempty vox hv
  have hidx : tileIndices 2 1 1 = [⟨0, 0, 0⟩, ⟨1, 0, 0⟩] := by decide
  have three : ∀ b : BinVOX ℚ, b.white.length ≠ 0 → (wholeTileFile b).take 3 = ascii "#bi" := by
    intro b hb
    unfold wholeTileFile BinVOX.write
    simp only [if_neg hb, Sink.write, List.nil_append, if_true]
    rfl
  let f0 : Bytes := tileFile (ascii "a") ⟨0, 0, 0⟩
  let f1 : Bytes := tileFile (ascii "a") ⟨1, 0, 0⟩
  have m0 : DiceMoment (ascii "a") vox (tileIndices 2 1 1) [] ((GoMap.set [] f0 ((wholeTileFile (vox ⟨0, 0, 0⟩)).take 3) : FS)) := by
    rw [hidx]
    exact .writing 3 rfl n0
  rw [three _ n0] at m0
  have m1 : DiceMoment (ascii "a") vox (tileIndices 2 1 1) (GoMap.set [] f0 (ascii "#bi"))
      (GoMap.set (GoMap.set [] f0 (ascii "#bi")) f1 ((wholeTileFile (vox ⟨1, 0, 0⟩)).take 3) : FS) := by
    rw [hidx]
    exact .existing (by decide) (.writing 3 (by decide) n1)
  rw [three _ n1] at m1
  refine ⟨_, _, .again vox (.again vox (.none _) hv m0) hv m1, ⟨vox, hv, rfl⟩, ?_⟩
  rw [hidx]
  unfold diceLoop
  rw [if_pos (by decide)]
  unfold diceLoop
  rw [if_pos (by decide)]
  unfold diceLoop
  exact ⟨rfl, by decide, by decide⟩

/-- The claims on this history: nothing but the job's tiles is touched, and at most two tiles are torn. -/
example [FloatText ℚ] [LawfulFloatText ℚ] : ∃ (fs' : FS) (out : FS × Option (List Bytes)) (whole : BinVOX ℚ),
    KilledRuns wallMesh wallBox wallLayout 2 1 1 (ascii "a") 2 [] fs' ∧
    DiceRun wallMesh wallBox wallLayout 2 1 1 (ascii "a") goodDisk fs' out ∧
    VoxelizeRun (wholeModel wallLayout wallBox 2 1 1) wallMesh (.ok whole) ∧
    ∃ bad : List Key, bad.length ≤ 2 ∧ ∀ t ∈ tileIndices 2 1 1, ∀ l, InDims 2 4 4 l → t ∉ bad →
      Vox whole (l.shift (t.X * 2) (t.Y * 4) (t.Z * 4)) → ∃ (file : Bytes) (b' : BinVOX ℚ),
        out.1.get (tileFile (ascii "a") t) = some file ∧ BinVOX.Read (some ⟨file, true⟩) wholeRegion = some b' ∧ Vox b' l := by
  obtain ⟨fs', out, hk, hr, -, e0, e1⟩ := wall_two_kills
  obtain ⟨whole, hw⟩ := wall_whole
  choose vox hv using wall_tiles
  have hfs : ∀ t ∈ tileIndices 2 1 1, GoMap.get ([] : FS) (tileFile (ascii "a") t) = none := fun _ _ => rfl
  obtain ⟨-, ⟨bad, hb, hgood, -⟩, -⟩ := dice_after_kills wallMesh wallBox wallLayout 2 1 1 (ascii "a") hk vox hv hfs
    goodDisk goodDisk_good out hr
  have := dice_killed wallMesh wallBox wallLayout 2 1 1 (ascii "a") hk vox hv
  obtain ⟨bad', hb', hvx⟩ := dice_killed_voxels wallBox 4 4 2 1 1 wallLayout wall_layout (by decide +kernel) (by decide) (by decide) (by decide)
    (by decide) (by decide) wallMesh whole hw (ascii "a") [] fs' hfs 2 hk goodDisk goodDisk_good out hr
  exact ⟨fs', out, whole, hk, hr, hw, bad', hb', fun t ht l hl hn hv => (hvx t ht l hl).2 hn hv⟩

/-- The other theorems on the walls: a kill of the first run, and a run whose data write fails. -/
example [FloatText ℚ] (vox : Key → BinVOX ℚ)
    (hv : ∀ t, VoxelizeRun (tileModel wallLayout wallBox t) wallMesh (.ok (vox t))) :=
  dice_kill_possible wallMesh wallBox wallLayout 2 1 1 (ascii "a") (.none []) vox hv ⟨1, 0, 0⟩ (by decide) rfl
    (wall_tiles_nonempty vox hv).2 40

example [FloatText ℚ] (vox : Key → BinVOX ℚ) :=
  run_is_moment (ascii "a") vox (fun _ => ⟨true, [.full, .fail 1], true⟩) (fun _ => Or.inr ⟨_, rfl⟩) (tileIndices 2 1 1) [] []

end StlDice
