import Verif.Props.Gaps
import Verif.Props.SvxNames
import Verif.Props.Commands
import Verif.Props.VoxcutOut
import Verif.Props.MergeBinvoxCmd

/-! # Every command has an outcome, and nothing is written after a failure (C53, C67, C72, C74, C76, C77) -/

namespace StlDice
open GoFloat BinVOX Spec

/-! ## stldice-slave -/

namespace Slave
variable {F : Type} [FloatText F] {env : Env F}

/-- **C53.** A server that died does nothing until it is started again: it answers nothing and touches no file. -/
theorem dead_only_restarts {s t : State F} (hd : s.dead = true) (h : Step env s t) :
    t.dead = false ∧ t.disk = s.disk ∧ t.replies = s.replies ∧ t.running = s.running := by
  cases h with
  | restart _ => exact ⟨rfl, rfl, rfl, rfl⟩
  | request _ h _ | read _ h _ _ | readEnd _ h _ _ _ | created h _ | wrote _ h _ _ _ _ | saved h _ | notCreated h _ | saveFailed h _ | wroteNil h _ | createFailed h _ => rw [hd] at h; cases h

/-- **C53.** Every request that is about to change its file or is changing it can fail: it is then answered with an
    error, and no file is changed. -/
theorem pending_can_fail {s : State F} {pre post : List (Request F × Pending F)} {q : Request F} {p : Pending F}
    (ha : s.dead = false) (hr : s.running = pre ++ (q, p) :: post) (hp : ∀ got, p ≠ .reading got) :
    ∃ t, Step env s t ∧ t.replies = (q, .error) :: s.replies ∧ t.disk = s.disk ∧ t.running = pre ++ post ∧
      t.dead = false := by
  cases p with
  | reading got => exact absurd rfl (hp got)
  | save mesh => exact ⟨_, .notCreated ha hr, rfl, rfl, rfl, ha⟩
  | saving mesh pos => exact ⟨_, .saveFailed ha hr, rfl, rfl, rfl, ha⟩
  | writeNil => exact ⟨_, .createFailed ha hr, rfl, rfl, rfl, ha⟩

/-- Files are never removed. -/
theorem step_keeps {s t : State F} (h : Step env s t) {name : Bytes} (hn : s.disk name ≠ none) : t.disk name ≠ none := by
  have hset : ∀ n c, setFile s.disk n c name ≠ none := by
    intro n c
    unfold setFile
    split
    · simp
    · exact hn
  cases h with
  | request q _ ha => rw [arrive_disk ha]; exact hn
  | readEnd _ _ _ _ _ => rw [handleRead_disk]; exact hn
  | created _ _ => exact hset _ _
  | wrote _ _ _ _ _ _ => exact hset _ _
  | wroteNil _ _ => exact hset _ _
  | _ => exact hn

/-- What is being read exists. -/
theorem reading_exists {disk : Bytes → Option Bytes} {s : State F} (h : Reach env (start disk) s) :
    ∀ q got, (q, Pending.reading got) ∈ s.running → s.disk (q.file env) ≠ none := by
  induction h with
  | refl => exact fun _ _ hm => (List.not_mem_nil hm).elim
  | killed _ _ => intro _ _ hm; cases hm
  | @step t u _ hs ih =>
    intro q got hm
    have hold : ∀ got', (q, Pending.reading got') ∈ t.running → u.disk (q.file env) ≠ none := fun got' hm => step_keeps hs (ih q got' hm)
    have hrem : ∀ {pre post : List (Request F × Pending F)} {x}, t.running = pre ++ x :: post →
        (q, Pending.reading got) ∈ pre ++ post → u.disk (q.file env) ≠ none := by
      intro pre post x hr hm
      exact hold got (by rw [hr]; exact mem_removed hm)
    cases hs with
    | request q' _ ha =>
      cases ha with
      | atOnce =>
        rcases handleRead_running hm with h | e | ⟨_, _, _, e, _⟩
        · exact hold got h
        · simp at e
        · simp at e
      | unopened =>
        rcases handleRead_running hm with h | e | ⟨_, _, _, e, _⟩
        · exact hold got h
        · simp at e
        · simp at e
      | @opened b hb _ =>
        rcases List.mem_cons.mp hm with e | hm
        · simp only [Prod.mk.injEq, Pending.reading.injEq] at e
          rw [e.1]
          show t.disk _ ≠ none
          rw [hb]
          simp
        · exact hold got hm
    | @read pre post q' got' b n _ hr hb =>
      rcases mem_replaced (x := (q', Pending.reading got')) hm with e | hm
      · simp only [Prod.mk.injEq, Pending.reading.injEq] at e
        exact hold got' (by rw [hr, e.1]; simp)
      · exact hold got (by rw [hr]; exact hm)
    | @readEnd pre post q' got' b clean _ hr _ _ =>
      rcases handleRead_running hm with h | e | ⟨_, _, _, e, _⟩
      · exact hrem hr h
      · simp at e
      · simp at e
    | @created pre post q' mesh _ hr =>
      rcases mem_replaced (x := (q', Pending.save mesh)) hm with e | hm
      · simp at e
      · exact hold got (by rw [hr]; exact hm)
    | @wrote pre post q' mesh pos b n _ hr _ _ _ =>
      rcases mem_replaced (x := (q', Pending.saving mesh pos)) hm with e | hm
      · simp at e
      · exact hold got (by rw [hr]; exact hm)
    | saved _ hr => exact hrem hr hm
    | notCreated _ hr => exact hrem hr hm
    | saveFailed _ hr => exact hrem hr hm
    | wroteNil _ hr => cases hm
    | createFailed _ hr => exact hrem hr hm
    | restart _ => exact hold got hm

theorem readData_failed {r : Region} {h : Header F} {b : Bytes} {c : Cursor} {m : WhiteVoxelMap} : readData r h false b c m = none := by
  fun_induction readData r h false b c m <;> simp_all

/-- A read that fails gives no model. -/
theorem read_failed (b : Bytes) (r : Region) : BinVOX.Read (F := F) (some ⟨b, false⟩) r = none := by
  unfold BinVOX.Read BinVOX.read
  dsimp only
  split
  · rfl
  · cases readHeader (F := F) binvoxMagic r b with
    | none => rfl
    | some x =>
      obtain ⟨h, rest⟩ := x
      dsimp only
      rw [readData_failed]

/-- **C53.** Every request that is reading its model can fail too: it is then answered with an error, and no file is changed. -/
theorem reader_can_fail {disk : Bytes → Option Bytes} {s : State F} (h : Reach env (start disk) s) (ha : s.dead = false)
    {pre post : List (Request F × Pending F)} {q : Request F} {got : Bytes} (hr : s.running = pre ++ (q, .reading got) :: post) :
    ∃ t, Reach env s t ∧ t.replies = (q, .error) :: s.replies ∧ t.disk = s.disk ∧ t.running = pre ++ post ∧ t.dead = false := by
  have hmem : (q, Pending.reading got) ∈ s.running := by rw [hr]; simp
  cases hb : s.disk (q.file env) with
  | none => exact absurd hb (reading_exists h q got hmem)
  | some b =>
    have h1 := Step.readEnd (env := env) false ha hr hb nofun
    cases q with
    | add region stl =>
      obtain ⟨mesh, hm⟩ := readers_reach h region stl got hmem
      have e : ∀ s' : State F, handleRead env s' (.add region stl) (some ⟨got, false⟩) = s'.later (.add region stl) (.save mesh) := by
        intro s'
        unfold handleRead
        dsimp only
        rw [hm, read_failed]
      rw [e] at h1
      exact ⟨_, (Reach.refl.step h1).step (.notCreated (pre := []) ha rfl), rfl, rfl, rfl, ha⟩
    | sub region stl =>
      have e : ∀ s' : State F, handleRead env s' (.sub region stl) (some ⟨got, false⟩) = s'.answer (.sub region stl) .error := by
        intro s'
        unfold handleRead
        dsimp only
        rw [read_failed]
      rw [e] at h1
      exact ⟨_, Reach.refl.step h1, rfl, rfl, rfl, ha⟩
    | get region =>
      have e : ∀ s' : State F, handleRead env s' (.get region) (some ⟨got, false⟩) = s'.answer (.get region) .error := by
        intro s'
        unfold handleRead
        dsimp only
        rw [read_failed]
      rw [e] at h1
      exact ⟨_, Reach.refl.step h1, rfl, rfl, rfl, ha⟩

section
attribute [local irreducible] filename Env.stlFile

/-- **C53.** While requests for one file do not overlap, a `GetSTLMesh` succeeds only if the file of its region is a model
    at this moment. -/
theorem get_success_readable {disk : Bytes → Option Bytes} {s t : State F} (h : ReachApart env (start disk) s) (hs : Step env s t)
    {region : VoxelRegion F} {r : Bytes} (hr : t.replies = (.get region, .ok r) :: s.replies) :
    Readable F s.disk (filename env.fmtV region) := by
  have hne : t.replies ≠ s.replies := by
    rw [hr]
    intro e
    exact absurd (congrArg List.length e) (by simp)
  have herr : ∀ {q : Request F}, t.replies = (q, Reply.error) :: s.replies → False := by
    intro q e
    have e := e.symm.trans hr
    rw [List.cons.injEq, Prod.mk.injEq] at e
    cases e.1.2
  cases hs with
  | request q _ ha =>
    rcases arrive_replies ha with e | e | ⟨e, ⟨region', rfl⟩, hread⟩
    · exact absurd e hne
    · exact (herr e).elim
    · have e := e.symm.trans hr
      rw [List.cons.injEq, Prod.mk.injEq] at e
      injection e.1.1 with e
      rw [← e]
      exact hread
  | @readEnd pre post q got b clean _ hrn hb he =>
    rcases handleRead_replies (env := env) { s with running := pre ++ post } q (some ⟨got, clean⟩) with e | e | ⟨e, ⟨region', rfl⟩, m, hm⟩
    · exact absurd e hne
    · exact (herr e).elim
    · have e := e.symm.trans hr
      rw [List.cons.injEq, Prod.mk.injEq] at e
      injection e.1.1 with e
      subst e
      cases clean with
      | false => rw [read_failed] at hm; cases hm
      | true =>
        obtain ⟨b', hb', hp⟩ := apart_reads h (.get region') got (by rw [hrn]; simp)
        obtain rfl : b' = b := Option.some.inj (hb'.symm.trans hb)
        rw [hp.eq_of_length_le (he rfl)] at hm
        refine ⟨m, ?_⟩
        unfold readModel whole
        have hb : s.disk (filename env.fmtV region') = some b' := hb
        rw [hb]
        exact hm
  | @saved pre post q mesh _ hrn =>
    obtain ⟨region', stl, rfl, -⟩ := (reach_invariant h.reach).2 q (.saving mesh (env.stlFile mesh).length) mesh (by rw [hrn]; simp) rfl
    have hr : (Request.add region' stl, Reply.ok []) :: s.replies = (.get region, .ok r) :: s.replies := hr
    rw [List.cons.injEq, Prod.mk.injEq] at hr
    cases hr.1.1
  | notCreated _ _ => exact (herr rfl).elim
  | saveFailed _ _ => exact (herr rfl).elim
  | createFailed _ _ => exact (herr rfl).elim
  | _ => exact absurd rfl hne

end

theorem setFile_eq (disk : Bytes → Option Bytes) (name b : Bytes) : setFile disk name b name = some b := if_pos rfl

theorem setFile_ne (disk : Bytes → Option Bytes) {name n : Bytes} (b : Bytes) (h : n ≠ name) :
    setFile disk name b n = disk n := if_neg h

section
attribute [local irreducible] filename Env.stlFile

/-- **C53.** A crash can leave any beginning of the file that is being saved: after every prefix of the STL file
    there is a history that ends with the server killed and exactly that in the region's file. -/
theorem crash_leaves_part {disk : Bytes → Option Bytes} {s : State F} (h : Reach env (start disk) s)
    (ha : s.dead = false) {q : Request F} {mesh : List (Tri (BinVOX.Vec F))} (hr : (q, Pending.save mesh) ∈ s.running)
    {b : Bytes} (hb : b <+: env.stlFile mesh) :
    ∃ t, Reach env (start disk) t ∧ t.dead = true ∧ t.replies = s.replies ∧ t.disk (q.file env) = some b ∧
      ∀ n, n ≠ q.file env → t.disk n = s.disk n := by
  obtain ⟨pre, post, hr⟩ := List.append_of_mem hr
  have h1 := h.step (.created ha hr)
  obtain ⟨c, hc⟩ := hb
  cases b with
  | nil =>
    refine ⟨_, .killed h1, rfl, rfl, setFile_eq _ _ _, ?_⟩
    intro n hn
    exact setFile_ne _ _ hn
  | cons x b =>
    have h2 := h1.step (.wrote (pre := pre) (post := post) (q := q) (mesh := mesh) (pos := 0) (b := []) (x :: b).length ha rfl
      (setFile_eq _ _ _) (Nat.succ_pos _) (by rw [← hc, List.length_append]; omega))
    have e : writeAt [] 0 (((env.stlFile mesh).drop 0).take (x :: b).length) = x :: b := by
      rw [writeAt_end (b := []) (pos := 0) rfl, List.drop_zero, ← hc, List.take_left, List.nil_append]
    rw [e] at h2
    refine ⟨_, .killed h2, rfl, rfl, setFile_eq _ _ _, ?_⟩
    intro n hn
    exact (setFile_ne _ _ hn).trans (setFile_ne _ _ hn)

end

end Slave

/-! ## The manifest -/

/-- Where a reader of the manifest puts the lower corner of pixel `(i, j)` of image `k` (slices along the manifest's
    Y axis), taking the origin in the unit in which the program writes it (mm) and the voxel size in metres. -/
def Spec.manifestPlace (m : Manifest ℚ) (i j k : Int) : Vec ℚ :=
  ⟨m.originX + i * (m.voxelSize * 1000), m.originY + k * (m.voxelSize * 1000), m.originZ + j * (m.voxelSize * 1000)⟩

/-- **C45.** The slice names in the manifest of a job are the names of its images iff the prefix is `out`. -/
theorem manifest_slices_iff {F : Type} [GoFloat F] (r : SvxReq F) (i : Int) :
    (manifestOf r).slices i = sliceName r.Dim r.NX r.NY r.NZ i ↔ r.OutPrefix = ascii "out" :=
  manifest_matches_iff r.Dim r.NX r.NY r.NZ i r.OutPrefix

/-- **C67.** Where the manifest puts the cell `(x, y, z)` of the model, which is pixel `(x + 1, dim - y)` of image
    `z + 1`: in x and z one voxel (`scale / dim`) above its true lower corner, in y mirrored. -/
theorem manifest_placement (r : SvxReq ℚ) (scale : ℚ)
    (h : layout r.MBB scale r.Dim r.NX r.NY r.NZ = .ok r.L) (hd : 0 < r.Dim) (hs : 0 < scale) (x y z : Int) :
    Spec.manifestPlace (manifestOf r) (x + 1) (r.Dim - y) (z + 1) =
      ⟨r.MBB.Min.X + x * (scale / r.Dim) + scale / r.Dim, r.MBB.Min.Z + z * (scale / r.Dim) + scale / r.Dim,
        r.MBB.Min.Y + (r.Dim - y) * (scale / r.Dim)⟩ := by
  have hv := manifest_voxelSize r scale h hd hs
  have hdq : (r.Dim : ℚ) ≠ 0 := by exact_mod_cast hd.ne'
  have e : (manifestOf r).voxelSize * 1000 = scale / r.Dim := by
    rw [eq_div_iff hdq, hv]
  unfold Spec.manifestPlace
  rw [e]
  show (⟨r.MBB.Min.X + _, r.MBB.Min.Z + _, r.MBB.Min.Y + _⟩ : Vec ℚ) = _
  congr 1 <;> push_cast <;> ring

/-- The cell at the lower corner of a cube of 10 mm at 10 voxels is put at (1, 1, 10) in the manifest's (x, z, y). -/
example : Spec.manifestPlace (manifestOf (boxJob 10 10 10 1 cubeLayout)) (0 + 1) (10 - 0) (0 + 1) = ⟨1, 1, 10⟩ := by
  have := manifest_placement (boxJob 10 10 10 1 cubeLayout) 10 (by decide +kernel) (by decide) (by norm_num) 0 0 0
  refine Eq.trans this ?_
  decide +kernel

/-! ## Commands -/

namespace Cmd
section
variable {F : Type} [FloatText F] {mesh : BinVOX F → List (Tri (Vec F)) → Prop} {lib : GL F} {d d' : Disk} {args : List Bytes}

/-- **C72.** An unreadable first argument: the command fails, without touching anything, and that is all it can do. -/
theorem convert_unreadable {i o : Bytes} (h : BinVOX.Read (F := F) (input d i) wholeRegion = none) {e : Exit} :
    ConvertRun mesh lib d [i, o] d' e ↔ d' = d ∧ e = .fatal := by
  constructor
  · intro hr
    cases hr with
    | usage hu => exact absurd rfl hu
    | unreadable _ => exact ⟨rfl, rfl⟩
    | saved hs _ _ => rw [show BinVOX.Read (F := F) (input d i) ⟨0, 0, 0, 0, 0, 0⟩ = none from h] at hs; cases hs
  · rintro ⟨rfl, rfl⟩
    exact .unreadable h

/-- **C72.** For all arguments and files the commands come to an end: there is a run. -/
theorem convert_total (hm : ∀ b, ∃ tris, mesh b tris) : ∃ d' e, ConvertRun mesh lib d args d' e := by
  match args with
  | [] => exact ⟨_, _, .usage (by simp)⟩
  | [_] => exact ⟨_, _, .usage (by simp)⟩
  | _ :: _ :: _ :: _ => exact ⟨_, _, .usage (by simp)⟩
  | [i, o] =>
    cases h : BinVOX.Read (F := F) (input d i) wholeRegion with
    | none => exact ⟨_, _, .unreadable h⟩
    | some b =>
      obtain ⟨tris, ht⟩ := hm b
      exact ⟨_, _, .saved h ht .ok⟩

end

/-- **C72.** marching-cubes and manifold-mesh in particular. -/
theorem convert_commands_total {F : Type} [GoFloat F] [FloatText F] (lib : GL F) (d : Disk) (args : List Bytes) :
    (∃ d' e, MarchingCmd lib d args d' e) ∧ ∃ d' e, ManifoldCmd lib d args d' e :=
  ⟨convert_total fun _ => ⟨_, _, _, _, List.Perm.refl _, List.Perm.refl _, List.Perm.refl _, rfl⟩,
    convert_total Manifold.manifold_run_exists⟩

section
variable {F : Type} [GoFloat F] [FloatText F] {lib : GL F} {d d' : Disk} {fl : CutFlags} {e : Exit}

/-- The binvox output that was asked for is there in full. -/
def BinvoxWritten (F : Type) [GoFloat F] [FloatText F] (fl : CutFlags) (d d' : Disk) : Prop :=
  fl.obinvox ≠ [] → ∃ b : BinVOX F, cutModel d fl = some b ∧ ∃ env file, b.Write env fl.region = (some file, true) ∧
    d' fl.obinvox = some file

/-- The VOX output that was asked for is there in full. -/
def VoxWritten (F : Type) [GoFloat F] [FloatText F] (fl : CutFlags) (d d' : Disk) : Prop :=
  fl.ovox ≠ [] → ∃ b : BinVOX F, cutModel d fl = some b ∧ ∃ env m, m.Perm b.white ∧
    (writeVOX ⟨[], env⟩ m).2 = true ∧ d' fl.ovox = some (writeVOX ⟨[], env⟩ m).1.out

omit [GoFloat F] in
theorem write_some {b : BinVOX F} {env : FileEnv} {r : Region} (h : (b.Write env r).2 = true) :
    ∃ file, b.Write env r = (some file, true) := by
  cases hw : b.Write env r with
  | mk a ok =>
    rw [hw] at h
    have h : ok = true := h
    subst h
    cases a with
    | some file => exact ⟨file, rfl⟩
    | none =>
      exfalso
      unfold BinVOX.Write at hw
      dsimp only at hw
      revert hw
      repeat' split
      all_goals (intro hw; cases hw)

theorem outBinvox_written {b : BinVOX F} (hb : cutModel d fl = some b) {env : FileEnv}
    (h : (outBinvox fl b env d).2 = true) (hd : d' fl.obinvox = (outBinvox fl b env d).1 fl.obinvox) :
    BinvoxWritten F fl d d' := by
  intro hne
  have hu : outBinvox fl b env d = (match (b.Write env fl.region).1 with
      | none => d
      | some c => put d fl.obinvox c, (b.Write env fl.region).2) := by
    unfold outBinvox
    rw [if_neg hne]
    rfl
  rw [hu] at h
  obtain ⟨file, hf⟩ := write_some h
  refine ⟨b, hb, env, file, hf, ?_⟩
  rw [hd, hu, hf]
  show put d fl.obinvox file fl.obinvox = some file
  simp [put]

/-- **C74.** The outputs are written one after the other, and nothing is written after a failure: if the VOX file was
    changed, the binvox file asked for is complete; if the STL file was changed, so are both others.  (The
    three names are different.) -/
theorem voxcut_order (h : VoxcutRun (F := F) lib d fl d' e)
    (h1 : fl.obinvox ≠ fl.ovox) (h2 : fl.obinvox ≠ fl.ostl) (h3 : fl.ovox ≠ fl.ostl) :
    (d' fl.ovox ≠ d fl.ovox → BinvoxWritten F fl d d') ∧
    (d' fl.ostl ≠ d fl.ostl → BinvoxWritten F fl d d' ∧ VoxWritten F fl d d') := by
  have hbv : ∀ (b : BinVOX F) (env : FileEnv) (n : Bytes), n ≠ fl.obinvox → (outBinvox fl b env d).1 n = d n := by
    intro b env n hn
    unfold outBinvox
    split
    · rfl
    · dsimp only
      cases (b.Write env fl.region).1 with
      | none => rfl
      | some c => exact if_neg hn
  have hvx : ∀ (m : WhiteVoxelMap) (env : FileEnv) (D : Disk) (n : Bytes), n ≠ fl.ovox → (outVox fl m env D).1 n = D n := by
    intro m env D n hn
    unfold outVox
    split
    · rfl
    · split
      · rfl
      · simp [put, hn]
  cases h with
  | fatal h => exact ⟨fun hc => absurd rfl hc, fun hc => absurd rfl hc⟩
  | binvoxFails h hf =>
    exact ⟨fun hc => absurd (hbv _ _ _ h1.symm) hc, fun hc => absurd (hbv _ _ _ h2.symm) hc⟩
  | @voxFails b env m env2 h hf hm hf2 =>
    have hw : BinvoxWritten F fl d (outVox fl m env2 (outBinvox fl b env d).1).1 :=
      outBinvox_written h hf (hvx _ _ _ _ h1)
    refine ⟨fun _ => hw, fun hc => absurd ?_ hc⟩
    rw [hvx _ _ _ _ h3.symm, hbv _ _ _ h2.symm]
  | @last b env m env2 _ ok h hf hm hf2 hs =>
    have hst : ∀ n, n ≠ fl.ostl → d' n = (outVox fl m env2 (outBinvox fl b env d).1).1 n := by
      intro n hn
      have hsave : ∀ c, Save (outVox fl m env2 (outBinvox fl b env d).1).1 fl.ostl c d' ok →
          d' n = (outVox fl m env2 (outBinvox fl b env d).1).1 n := by
        intro c hsv
        cases hsv with
        | ok => simp [put, hn]
        | notCreated => rfl
        | part _ => simp [put, hn]
      cases hs with
      | none _ => rfl
      | manifold _ _ _ hsv => exact hsave _ hsv
      | cubes _ _ _ hsv => exact hsave _ hsv
    have hw : BinvoxWritten F fl d d' :=
      outBinvox_written h hf (by rw [hst _ h2, hvx _ _ _ _ h1])
    refine ⟨fun _ => hw, fun _ => ⟨hw, ?_⟩⟩
    intro hne
    have hu : outVox fl m env2 (outBinvox fl b env d).1 = if !env2.createOk then ((outBinvox fl b env d).1, false)
        else (put (outBinvox fl b env d).1 fl.ovox (writeVOX ⟨[], env2.plan⟩ m).1.out,
          (writeVOX ⟨[], env2.plan⟩ m).2 && env2.closeOk) := by
      unfold outVox
      rw [if_neg hne]
    rw [hu] at hf2 hst
    by_cases hc : env2.createOk = true
    · rw [hc] at hf2 hst
      have hf2 : ((writeVOX ⟨[], env2.plan⟩ m).2 && env2.closeOk) = true := hf2
      rw [Bool.and_eq_true] at hf2
      refine ⟨b, h, env2.plan, m, hm, hf2.1, ?_⟩
      rw [hst _ h3]
      show put _ fl.ovox _ fl.ovox = _
      simp [put]
    · have hc : env2.createOk = false := by simpa using hc
      rw [hc] at hf2
      cases hf2

/-- **C74.** For all flags and files voxcut comes to an end. -/
theorem voxcut_total : ∃ d' e, VoxcutRun (F := F) lib d fl d' e := by
  cases h : cutModel (F := F) d fl with
  | none => exact ⟨_, _, .fatal h⟩
  | some b =>
    cases h1 : (outBinvox fl b ⟨true, [], true⟩ d).2 with
    | false => exact ⟨_, _, .binvoxFails h h1⟩
    | true =>
      cases h2 : (outVox fl b.white ⟨true, [], true⟩ (outBinvox fl b ⟨true, [], true⟩ d).1).2 with
      | false => exact ⟨_, _, .voxFails h h1 (List.Perm.refl _) h2⟩
      | true =>
        by_cases ho : fl.ostl = []
        · exact ⟨_, _, .last h h1 (List.Perm.refl _) h2 (.none ho)⟩
        · cases hm : fl.manifold with
          | true =>
            obtain ⟨tris, ht⟩ := Manifold.manifold_run_exists b
            exact ⟨_, _, .last h h1 (List.Perm.refl _) h2 (.manifold ho hm ht .ok)⟩
          | false =>
            exact ⟨_, _, .last h h1 (List.Perm.refl _) h2
              (.cubes ho hm ⟨_, _, List.Perm.refl _, List.Perm.refl _, rfl⟩ .ok)⟩

/-- **C76.** For all files and choices of the runtime merge-binvox comes to an end. -/
theorem merge_binvox_total {sch : Bytes → AddSched} {pre : Bytes} {force : Bool} {globbed : List Bytes} :
    ∃ d' e, MergeBinvoxRun (F := F) d sch pre force globbed d' e := by
  cases h : mergeInputs (pre ++ ascii ".vsh") force globbed with
  | none => exact ⟨_, _, .refused h⟩
  | some files =>
    cases hm : VShell.Merge (files.map fun f => (sch f, BinVOX.Read (F := F) (input d f) wholeRegion)) with
    | none => exact ⟨_, _, .failed h hm⟩
    | some o =>
      cases o with
      | none => exact ⟨_, _, .nilShell true h hm⟩
      | some vs => exact ⟨_, _, .written ⟨true, [], true⟩ h hm⟩

/-- **C77.** If the first argument's model has no voxels along some axis of a tile (it is too flat for the number of
    tiles), stldice fails, prints nothing and changes nothing. -/
theorem dice_too_flat {load : Bytes → Option (Mesh F)} {bbox : Mesh F → Box F} {env : Bytes → Key → FileEnv} {fl : DiceFlags F}
    {fs fs' : FS} {out : Bytes} {e : Exit} {a : Bytes} {rest : List Bytes} (hargs : fl.args = a :: rest)
    (hn : ∀ n ∈ [fl.nx, fl.ny, fl.nz], n ≠ 0 ∧ n ∣ fl.dim) (hm : fl.mbb ≠ some none) {mesh : Mesh F}
    (hl : (fs.get a).bind load = some mesh)
    (hflat : layout (fl.mbb.join.getD (bbox mesh)) (boxScale (fl.mbb.join.getD (bbox mesh))) fl.dim fl.nx fl.ny fl.nz = .err) :
    DiceCmd load bbox env fl fs out fs' e ↔ out = [] ∧ fs' = fs ∧ e = .fatal := by
  have hdiv : divides fl.dim [fl.nx, fl.ny, fl.nz] = .ok () := by
    have h : ∀ ns : List Int, (∀ n ∈ ns, n ≠ 0 ∧ n ∣ fl.dim) → divides fl.dim ns = .ok () := by
      intro ns
      induction ns with
      | nil => intro _; rfl
      | cons n ns ih =>
        intro h
        obtain ⟨h0, h1⟩ := h n (by simp)
        rw [divides, if_neg h0, if_neg (by rw [not_not]; exact Int.tmod_eq_zero_of_dvd h1)]
        exact ih fun m hm => h m (by simp [hm])
    exact h _ hn
  have hne : fl.args ≠ [] := by rw [hargs]; simp
  have hargs' : ∀ {fs' r}, DiceArgs load bbox env fl.dim fl.nx fl.ny fl.nz fl.args fs fl.mbb.join [] fs' r →
      fs' = fs ∧ r = .err := by
    intro fs' r h
    rw [hargs] at h
    cases h with
    | unreadable h => rw [hl] at h; cases h
    | layoutFails _ _ => exact ⟨rfl, rfl⟩
    | layoutPanics h hl' | writeFails h hl' _ | next h hl' _ _ =>
      rw [hl] at h; injection h with h; subst h; rw [hflat] at hl'; cases hl'
  constructor
  · intro h
    cases h with
    | usage h => exact absurd h hne
    | notMultiple _ hd => rw [hdiv] at hd; cases hd
    | divByZero _ hd => rw [hdiv] at hd; cases hd
    | badMbb _ _ h => exact absurd h hm
    | failed _ _ _ hb ha => subst hb; exact ⟨rfl, (hargs' ha).1, rfl⟩
    | panics _ _ _ hb ha => subst hb; cases (hargs' ha).2
    | done _ _ _ hb ha _ => subst hb; cases (hargs' ha).2
  · rintro ⟨rfl, rfl, rfl⟩
    exact .failed hne hdiv hm rfl (by rw [hargs]; exact .layoutFails hl hflat)

/-- When a tile has no voxels: in exact arithmetic a box too flat for its number of tiles. -/
theorem layout_flat_iff {B : Box ℚ} {scale : ℚ} {dim nx ny nz : Int} (hd : 0 < dim) (hs : 0 < scale)
    (hn : 0 < nx ∧ 0 < ny ∧ 0 < nz) (hB : B.Min.X ≤ B.Max.X ∧ B.Min.Y ≤ B.Max.Y ∧ B.Min.Z ≤ B.Max.Z) :
    layout B scale dim nx ny nz = .err ↔
      (B.Max.X - B.Min.X) * dim ≤ (nx - 1) * scale ∨ (B.Max.Y - B.Min.Y) * dim ≤ (ny - 1) * scale ∨
      (B.Max.Z - B.Min.Z) * dim ≤ (nz - 1) * scale := by
  have hdq : (0 : ℚ) < dim := by exact_mod_cast hd
  have key : ∀ (lo hi : ℚ) (n : Int), lo ≤ hi → 0 < n →
      ((voxelsAlong lo hi ((dim : ℚ) / scale)).tdiv n = 0 ↔ (hi - lo) * dim ≤ (n - 1) * scale) := by
    intro lo hi n hlh hn0
    have h0 : 0 ≤ (hi - lo) * ((dim : ℚ) / scale) := mul_nonneg (by linarith) (div_nonneg hdq.le hs.le)
    rw [voxelsAlong_rat _ _ _ h0, Int.tdiv_eq_ediv_of_nonneg (Int.ceil_nonneg h0)]
    have h1 : ⌈(hi - lo) * ((dim : ℚ) / scale)⌉ / n = 0 ↔ ⌈(hi - lo) * ((dim : ℚ) / scale)⌉ ≤ n - 1 := by
      have := Int.ceil_nonneg h0
      constructor
      · intro h
        have := Int.lt_ediv_add_one_mul_self ⌈(hi - lo) * ((dim : ℚ) / scale)⌉ hn0
        rw [h] at this
        omega
      · intro h
        exact Int.ediv_eq_zero_of_lt this (by omega)
    rw [h1, Int.ceil_le, show (hi - lo) * ((dim : ℚ) / scale) = (hi - lo) * dim / scale by ring, div_le_iff₀ hs]
    push_cast
    rfl
  rw [← key _ _ nx hB.1 hn.1, ← key _ _ ny hB.2.1 hn.2.1, ← key _ _ nz hB.2.2 hn.2.2]
  unfold layout
  dsimp only
  rw [if_neg (by omega)]
  show (if _ then _ else _) = _ ↔ _
  split
  · rename_i h
    exact ⟨fun _ => h, fun _ => rfl⟩
  · rename_i h
    exact ⟨fun h' => (nomatch h'), fun h' => absurd h' h⟩

/-- A plate of 10 × 10 × 1 mm at 10 voxels cannot be cut into two layers. -/
example : layout (⟨⟨0, 0, 0⟩, ⟨10, 10, 1⟩⟩ : Box ℚ) 10 10 2 2 2 = .err :=
  (layout_flat_iff (by norm_num) (by norm_num) (by norm_num) (by norm_num)).mpr (by norm_num)

end

/-! ### The hypotheses are met -/

/-- The server of the slave scenario, killed while it is writing the file: all it can then do is restart. -/
example : ∃ s : Slave.State ℚ, Slave.Reach Slave.exEnvQ (Slave.start fun _ => none) s ∧ s.dead = true ∧
    ∃ t, Slave.Step Slave.exEnvQ s t ∧ t.dead = false := by
  obtain ⟨s, hr, hd, -⟩ := Slave.crash_leaves_part (env := Slave.exEnvQ) (disk := fun _ => none)
    (Slave.exWaiting_reached (region := Slave.exRegion) Slave.exStl_ok) rfl (.head _) (List.nil_prefix)
  exact ⟨s, hr, hd, _, .restart hd, (Slave.dead_only_restarts (env := Slave.exEnvQ) hd (.restart hd)).1⟩

example := Slave.pending_can_fail (env := Slave.exEnvQ) (s := Slave.exWaiting Slave.exRegion Slave.exStl Slave.exMeshQ)
  (pre := []) (post := []) rfl rfl nofun

/-- A request that is reading a model. -/
example := Slave.reader_can_fail (env := Slave.exEnvQ) (disk := Slave.exReadable) (pre := []) (post := [])
  (.step .refl (.request (.get Slave.exRegion) rfl (.opened rfl nofun))) rfl rfl

example := Slave.get_success_readable (env := Slave.exEnvQ) (disk := Slave.exReadable) (region := Slave.exRegion) (r := []) .refl
  (.request (.get Slave.exRegion) rfl .atOnce)
  (by rw [Slave.get_readable (Slave.exReadable_readable _)])

/-- On an empty disk binvox2stl fails. -/
example (lib : GL ℚ) : ∃ (d : Disk) (mesh : BinVOX ℚ → List (Tri (Vec ℚ)) → Prop), ∀ d' e,
    ConvertRun mesh lib d [ascii "in", ascii "out"] d' e ↔ d' = d ∧ e = .fatal :=
  ⟨fun _ => none, fun _ _ => True, fun _ _ => convert_unreadable (by rfl)⟩

example (lib : GL ℚ) (d : Disk) := convert_total (lib := lib) (d := d) (args := [ascii "in", ascii "out"])
  (mesh := Manifold.ManifoldRun) Manifold.manifold_run_exists

/-- The voxcut run with three outputs. -/
example (lib : GL ℚ) : ∃ (d d' : Disk), d' (ascii "v") ≠ d (ascii "v") → BinvoxWritten ℚ ⟨ascii "b", ascii "s", ascii "v", wholeRegion, true, [ascii "base"]⟩ d d' := by
  obtain ⟨d, d', bw, _, _, _, h⟩ := exVoxcut_runs lib
  exact ⟨d, d', (voxcut_order h (by decide) (by decide) (by decide)).1⟩

/-- The plate cannot be cut into two layers, so stldice fails. -/
example (m : Mesh ℚ) (env : Bytes → Key → FileEnv) (d' : FS) (out : Bytes) (e : Exit) := dice_too_flat (F := ℚ) (load := fun _ => some m)
  (bbox := fun _ => ⟨⟨0, 0, 0⟩, ⟨10, 10, 1⟩⟩) (env := env) (fl := ⟨none, 10, 2, 2, 2, [ascii "plate"]⟩) (fs := [(ascii "plate", [])]) (fs' := d') (out := out) (e := e)
  rfl (by decide) nofun (mesh := m) rfl
  ((layout_flat_iff (by decide +kernel) (by decide +kernel) (by norm_num) (by norm_num [Option.join])).mpr (by decide +kernel))

end Cmd
end StlDice
