import Verif.Model.SlicePipe
import Verif.Props.Svx
import Verif.Props.SvxLocal
import Mathlib.Data.Prod.Lex
import Mathlib.Order.OrderIsoNat

/-! # C121: the goroutines of a slice -/

namespace StlDice
open GoFloat BinVOX Spec

variable {F : Type} [GoFloat F]

theorem sendKeys_cons (j : BvInfo F) (zi : Int) (k : Key) (ks : List Key) : sendKeys j zi (k :: ks) =
    if zi ≠ (k.shift j.dx j.dy j.dz).Z then none
    else if (k.shift j.dx j.dy j.dz).X < 0 ∨ (k.shift j.dx j.dy j.dz).Y < 0 ∨ (k.shift j.dx j.dy j.dz).Z < 0 then sendKeys j zi ks
    else (sendKeys j zi ks).map (⟨(k.shift j.dx j.dy j.dz).X, (k.shift j.dx j.dy j.dz).Y, j.base⟩ :: ·) := rfl

theorem sendKeys_append (j : BvInfo F) (zi : Int) (as bs : List Key) {x : List VoxelInfo}
    (h : sendKeys j zi as = some x) : sendKeys j zi (as ++ bs) = (sendKeys j zi bs).map (x ++ ·) := by
  induction as generalizing x with
  | nil =>
    injection h with h
    subst h
    cases hb : sendKeys j zi bs with
    | none => exact hb
    | some y => exact hb
  | cons k ks ih =>
    rw [List.cons_append, sendKeys_cons]
    rw [sendKeys_cons] at h
    by_cases h1 : zi ≠ (k.shift j.dx j.dy j.dz).Z
    · rw [if_pos h1] at h; cases h
    rw [if_neg h1] at h ⊢
    by_cases h2 : (k.shift j.dx j.dy j.dz).X < 0 ∨ (k.shift j.dx j.dy j.dz).Y < 0 ∨ (k.shift j.dx j.dy j.dz).Z < 0
    · rw [if_pos h2] at h ⊢
      exact ih h
    · rw [if_neg h2] at h ⊢
      cases hk : sendKeys j zi ks with
      | none => rw [hk] at h; cases h
      | some y =>
        rw [hk] at h
        injection h with h
        subst h
        rw [ih hk]
        cases sendKeys j zi bs <;> rfl

theorem sendAll_snoc {zi : Int} {d : List (BvInfo F)} {vs ws : List VoxelInfo} {j : BvInfo F}
    (h : SendAll zi d (some vs)) (hj : SendRun zi j (some ws)) : SendAll zi (d ++ [j]) (some (vs ++ ws)) := by
  induction d generalizing vs with
  | nil =>
    cases h
    have := SendAll.cons hj (SendAll.nil (zi := zi))
    simpa using this
  | cons a d ih =>
    generalize hr : some vs = r0 at h
    cases h with
    | fatal h => cases hr
    | @cons _ _ us r h1 h2 =>
      cases r with
      | none => cases hr
      | some r =>
        injection hr with hr
        subst hr
        have := SendAll.cons h1 (ih h2)
        rw [List.append_assoc]
        exact this

theorem sendAll_dies {zi : Int} {d : List (BvInfo F)} {vs : List VoxelInfo} {j : BvInfo F} (rest : List (BvInfo F))
    (h : SendAll zi d (some vs)) (hj : SendRun zi j none) : SendAll zi (d ++ j :: rest) none := by
  induction d generalizing vs with
  | nil => exact .fatal hj
  | cons a d ih =>
    generalize hr : some vs = r0 at h
    cases h with
    | fatal h => cases hr
    | @cons _ _ us r h1 h2 =>
      cases r with
      | none => cases hr
      | some r => exact SendAll.cons h1 (ih h2)

/-- The current job of the calling goroutine and what it has sent of it. -/
inductive PipeCur (zi : Int) : PipeMain F → List (BvInfo F) → List VoxelInfo → Prop
  | waiting : PipeCur zi .waiting [] []
  | voxelizing (j) : PipeCur zi (.voxelizing j) [j] []
  | keys {j b' pre ks w} (hv : VoxelizeZRun j.bv j.mesh zi (.ok b')) (hp : (pre ++ ks).Perm (b'.white.keys ++ b'.color.keys))
      (hw : sendKeys j zi pre = some w) : PipeCur zi (.keys j ks) [j] w
  | closed : PipeCur zi .closed [] []

/-- The invariant of the pipeline. -/
structure PipeInv (dim zi : Int) (genFatal : Bool) (jobs : List (BvInfo F)) (s : Pipe F) : Prop where
  parts : ∃ d cur vs w, jobs = d ++ cur ++ s.gen ∧ SendAll zi d (some vs) ∧ PipeCur zi s.main cur w ∧ s.got ++ s.buf = vs ++ w
  closedGen : s.genClosed = true → s.gen = [] ∧ genFatal = false
  closedMain : s.main = .closed → s.genClosed = true
  done : ∀ img, s.out = some (some img) → s.main = .closed ∧ s.buf = [] ∧ ImagerRun dim s.got img
  died : s.out = some none → genFatal = true ∨ SendAll zi jobs none

theorem pipeInv_init (dim zi : Int) (genFatal : Bool) (jobs : List (BvInfo F)) :
    PipeInv dim zi genFatal jobs (Pipe.init jobs) where
  parts := ⟨[], [], [], [], rfl, .nil, .waiting, rfl⟩
  closedGen := by intro h; cases h
  closedMain := by intro h; cases h
  done := by intro img h; cases h
  died := by intro h; cases h

theorem pipeInv_step {dim zi : Int} {genFatal : Bool} {cap : Nat} {jobs : List (BvInfo F)} {s t : Pipe F}
    (h : PipeInv dim zi genFatal jobs s) (hs : PipeStep dim zi genFatal cap s t) : PipeInv dim zi genFatal jobs t := by
  obtain ⟨⟨d, cur, vs, w, hj, hd, hc, hb⟩, hcg, hcm, hdone, hdied⟩ := h
  cases hs with
  | @handOver j js ho hg hm =>
    rw [hm] at hc
    cases hc
    refine ⟨⟨d, [j], vs, [], by rw [hj, hg]; simp, hd, .voxelizing j, hb⟩, ?_, ?_, ?_, ?_⟩
    · intro hh
      rw [hg] at hcg
      exact absurd (hcg hh).1 (by simp)
    · intro hh; cases hh
    · intro img hh; rw [show _ = s.out from rfl, ho] at hh; cases hh
    · intro hh; rw [show _ = s.out from rfl, ho] at hh; cases hh
  | genDies ho hg hf =>
    exact ⟨⟨d, cur, vs, w, hj, hd, hc, hb⟩, hcg, hcm, (by intro img hh; cases hh), fun _ => Or.inl hf⟩
  | genCloses ho hg hf _ =>
    exact ⟨⟨d, cur, vs, w, hj, hd, hc, hb⟩, fun _ => ⟨hg, hf⟩, fun _ => rfl, hdone, hdied⟩
  | @voxelized j b' ord ho hm hv hp =>
    rw [hm] at hc
    cases hc
    refine ⟨⟨d, [j], vs, [], hj, hd, .keys (pre := []) hv (by simpa using hp) rfl, hb⟩, hcg, ?_, ?_, ?_⟩
    · intro hh; cases hh
    · intro img hh; rw [show _ = s.out from rfl, ho] at hh; cases hh
    · intro hh; rw [show _ = s.out from rfl, ho] at hh; cases hh
  | @voxelizeFailed j out ho hm hv hn =>
    rw [hm] at hc
    cases hc
    have hsr : SendRun zi j (some []) := by
      refine ⟨out, hv, ?_⟩
      cases out with
      | ok b' => exact absurd rfl (hn b')
      | err => rfl
      | panic => rfl
    have := sendAll_snoc hd hsr
    refine ⟨⟨d ++ [j], [], vs ++ [], [], by rw [hj]; simp, this, .waiting, by simpa using hb⟩, hcg, ?_, ?_, ?_⟩
    · intro hh; cases hh
    · intro img hh; rw [show _ = s.out from rfl, ho] at hh; cases hh
    · intro hh; rw [show _ = s.out from rfl, ho] at hh; cases hh
  | @keyFatal j k ks ho hm hk =>
    rw [hm] at hc
    cases hc with
    | @keys _ b' pre _ _ hv hp hw =>
      refine ⟨⟨d, [j], vs, w, hj, hd, by rw [hm]; exact .keys hv hp hw, hb⟩, hcg, hcm, (by intro img hh; cases hh), ?_⟩
      intro _
      right
      have hsr : SendRun zi j none := by
        refine ⟨.ok b', hv, _, hp, ?_⟩
        rw [sendKeys_append j zi pre (k :: ks) hw]
        unfold sendKeys
        dsimp only
        rw [if_pos hk]
        rfl
      rw [hj, List.append_assoc]
      exact sendAll_dies _ hd hsr
  | @keySkipped j k ks ho hm hk hn =>
    rw [hm] at hc
    cases hc with
    | @keys _ b' pre _ _ hv hp hw =>
      have hw' : sendKeys j zi (pre ++ [k]) = some (w ++ []) := by
        rw [sendKeys_append j zi pre [k] hw]
        unfold sendKeys
        dsimp only
        rw [if_neg (by simpa using hk), if_pos hn]
        rfl
      rw [List.append_nil] at hw'
      refine ⟨⟨d, [j], vs, w, hj, hd, .keys hv (by simpa using hp) hw', hb⟩, hcg, ?_, ?_, ?_⟩
      · intro hh; cases hh
      · intro img hh; rw [show _ = s.out from rfl, ho] at hh; cases hh
      · intro hh; rw [show _ = s.out from rfl, ho] at hh; cases hh
  | @keySent j k ks ho hm hk hn hroom =>
    rw [hm] at hc
    cases hc with
    | @keys _ b' pre _ _ hv hp hw =>
      have hw' : sendKeys j zi (pre ++ [k]) = some (w ++ [⟨(k.shift j.dx j.dy j.dz).X, (k.shift j.dx j.dy j.dz).Y, j.base⟩]) := by
        rw [sendKeys_append j zi pre [k] hw]
        unfold sendKeys
        dsimp only
        rw [if_neg (by simpa using hk), if_neg hn]
        rfl
      refine ⟨⟨d, [j], vs, _, hj, hd, .keys hv (by simpa using hp) hw', ?_⟩, hcg, ?_, ?_, ?_⟩
      · show s.got ++ (s.buf ++ _) = _
        rw [← List.append_assoc, hb, List.append_assoc]
      · intro hh; cases hh
      · intro img hh; rw [show _ = s.out from rfl, ho] at hh; cases hh
      · intro hh; rw [show _ = s.out from rfl, ho] at hh; cases hh
  | @jobDone j ho hm =>
    rw [hm] at hc
    cases hc with
    | @keys _ b' pre _ _ hv hp hw =>
      have hsr : SendRun zi j (some w) := by
        refine ⟨.ok b', hv, pre, by simpa using hp, hw.symm⟩
      refine ⟨⟨d ++ [j], [], vs ++ w, [], by rw [hj]; simp, sendAll_snoc hd hsr, .waiting, by simpa using hb⟩, hcg, ?_, ?_, ?_⟩
      · intro hh; cases hh
      · intro img hh; rw [show _ = s.out from rfl, ho] at hh; cases hh
      · intro hh; rw [show _ = s.out from rfl, ho] at hh; cases hh
  | mainCloses ho hm hg hclosed =>
    rw [hm] at hc
    cases hc
    refine ⟨⟨d, [], vs, [], hj, hd, .closed, hb⟩, hcg, fun _ => hclosed, ?_, ?_⟩
    · intro img hh; rw [show _ = s.out from rfl, ho] at hh; cases hh
    · intro hh; rw [show _ = s.out from rfl, ho] at hh; cases hh
  | @received v vs' ho hbuf =>
    refine ⟨⟨d, cur, vs, w, hj, hd, hc, ?_⟩, hcg, hcm, ?_, ?_⟩
    · show s.got ++ [v] ++ vs' = _
      rw [← hb, hbuf]
      simp
    · intro img hh; rw [show _ = s.out from rfl, ho] at hh; cases hh
    · intro hh; rw [show _ = s.out from rfl, ho] at hh; cases hh
  | @imaged img ho hm hbuf hi =>
    refine ⟨⟨d, cur, vs, w, hj, hd, hc, hb⟩, hcg, hcm, ?_, by intro hh; cases hh⟩
    intro img' hh
    injection hh with hh
    injection hh with hh
    subst hh
    exact ⟨hm, hbuf, hi⟩

theorem pipeInv_reach {dim zi : Int} {genFatal : Bool} {cap : Nat} {jobs : List (BvInfo F)} {s : Pipe F}
    (h : PipeReach dim zi genFatal cap (Pipe.init jobs) s) : PipeInv dim zi genFatal jobs s := by
  induction h with
  | refl => exact pipeInv_init dim zi genFatal jobs
  | step _ hs ih => exact pipeInv_step ih hs

/-- **C121.** The three goroutines never block each other for good: whatever happened, as long as there is neither an
    image nor a fatal exit some goroutine can go on. -/
theorem pipe_progress {dim zi : Int} {genFatal : Bool} {cap : Nat} (hcap : 0 < cap) {jobs : List (BvInfo F)} {s : Pipe F}
    (h : PipeReach dim zi genFatal cap (Pipe.init jobs) s) (ho : s.out = none) : ∃ t, PipeStep dim zi genFatal cap s t := by
  have hinv := pipeInv_reach h
  cases hm : s.main with
  | waiting =>
    cases hg : s.gen with
    | cons j js => exact ⟨_, .handOver ho hg hm⟩
    | nil =>
      cases hf : genFatal with
      | true => exact ⟨_, .genDies ho hg rfl⟩
      | false =>
        cases hc : s.genClosed with
        | false => exact ⟨_, .genCloses ho hg rfl hc⟩
        | true => exact ⟨_, .mainCloses ho hm hg hc⟩
  | voxelizing j =>
    obtain ⟨out, hout⟩ := (voxelize_defined j.bv j.mesh).2.1 zi
    cases out with
    | ok b' => exact ⟨_, .voxelized ho hm hout (List.Perm.refl _)⟩
    | err => exact ⟨_, .voxelizeFailed ho hm hout (by intro b' e; cases e)⟩
    | panic => exact ⟨_, .voxelizeFailed ho hm hout (by intro b' e; cases e)⟩
  | keys j ks =>
    cases ks with
    | nil => exact ⟨_, .jobDone ho hm⟩
    | cons k ks =>
      by_cases hk : zi = (k.shift j.dx j.dy j.dz).Z
      · by_cases hn : (k.shift j.dx j.dy j.dz).X < 0 ∨ (k.shift j.dx j.dy j.dz).Y < 0 ∨ (k.shift j.dx j.dy j.dz).Z < 0
        · exact ⟨_, .keySkipped ho hm hk hn⟩
        · by_cases hb : s.buf.length < cap
          · exact ⟨_, .keySent ho hm hk hn hb⟩
          · cases hbuf : s.buf with
            | nil => rw [hbuf] at hb; exact absurd hcap hb
            | cons v vs => exact ⟨_, .received ho hbuf⟩
      · exact ⟨_, .keyFatal ho hm hk⟩
  | closed =>
    cases hbuf : s.buf with
    | nil =>
      obtain ⟨img, hi⟩ := imager_defined dim s.got
      exact ⟨_, .imaged ho hm hbuf hi⟩
    | cons v vs => exact ⟨_, .received ho hbuf⟩

/-- How much is left to do: jobs and phases first, then keys and voxels on the way. -/
def pipeLeft (s : Pipe F) : Nat ×ₗ Nat :=
  toLex (3 * s.gen.length + (if s.genClosed then 0 else 1) +
      (match s.main with | .waiting => 1 | .voxelizing _ => 3 | .keys _ _ => 2 | .closed => 0) + (if s.out = none then 1 else 0),
    2 * (match s.main with | .keys _ ks => ks.length | _ => 0) + s.buf.length)

theorem pipeLeft_step {dim zi : Int} {genFatal : Bool} {cap : Nat} {s t : Pipe F} (h : PipeStep dim zi genFatal cap s t) :
    pipeLeft t < pipeLeft s := by
  have left : ∀ {a b c d : Nat}, a < c → (toLex (a, b) : Nat ×ₗ Nat) < toLex (c, d) := fun h => Prod.Lex.left _ _ h
  have right : ∀ {a b c d : Nat}, a = c → b < d → (toLex (a, b) : Nat ×ₗ Nat) < toLex (c, d) := by
    rintro a b c d rfl h
    exact Prod.Lex.right _ h
  unfold pipeLeft
  cases h with
  | handOver ho hg hm => apply left; simp only [ho, hg, hm, List.length_cons]; omega
  | genDies ho hg hf => apply left; simp only [ho, hg]; simp
  | genCloses ho hg hf hc => apply left; simp only [ho, hg, hc]; simp
  | voxelized ho hm hv hp => apply left; simp only [hm]; omega
  | voxelizeFailed ho hm hv hn => apply left; simp only [hm]; omega
  | keyFatal ho hm hk => apply left; simp only [ho, hm]; simp
  | keySkipped ho hm hk hn =>
    apply right
    · simp only [hm]
    · simp only [hm, List.length_cons]; omega
  | keySent ho hm hk hn hb =>
    apply right
    · simp only [hm]
    · simp only [hm, List.length_cons, List.length_append, List.length_nil]; omega
  | jobDone ho hm => apply left; simp only [hm]; omega
  | mainCloses ho hm hg hc => apply left; simp only [hm]; omega
  | received ho hb =>
    apply right rfl
    simp only [hb, List.length_cons]; omega
  | imaged ho hm hb hi => apply left; simp only [ho]; simp

/-- **C121.** No schedule goes on forever. -/
theorem pipe_terminates {dim zi : Int} {genFatal : Bool} {cap : Nat} (f : Nat → Pipe F) :
    ¬ ∀ n, PipeStep dim zi genFatal cap (f n) (f (n + 1)) := by
  intro h
  have hwf : WellFounded (fun a b : Nat ×ₗ Nat => a < b) := wellFounded_lt
  exact (RelEmbedding.natGT (fun n => pipeLeft (f n)) (fun n => pipeLeft_step (h n))).not_wellFounded hwf

/-- **C121.** When the slice is returned nothing is left behind: the generator has sent all its jobs and closed its
    channel, and the imager has received everything that was sent. -/
theorem pipe_leaves_nothing {dim zi : Int} {genFatal : Bool} {cap : Nat} {jobs : List (BvInfo F)} {s : Pipe F} {img : Image}
    (h : PipeReach dim zi genFatal cap (Pipe.init jobs) s) (ho : s.out = some (some img)) :
    s.gen = [] ∧ s.genClosed = true ∧ s.main = .closed ∧ s.buf = [] ∧ SendAll zi jobs (some s.got) := by
  have hinv := pipeInv_reach h
  obtain ⟨hm, hb, hi⟩ := hinv.done img ho
  have hc := hinv.closedMain hm
  obtain ⟨hg, hf⟩ := hinv.closedGen hc
  obtain ⟨d, cur, vs, w, hj, hd, hcur, hbv⟩ := hinv.parts
  rw [hm] at hcur
  cases hcur
  refine ⟨hg, hc, hm, hb, ?_⟩
  rw [hb, List.append_nil, List.append_nil] at hbv
  rw [hg, List.append_nil, List.append_nil] at hj
  rw [hj, hbv]
  exact hd

theorem PipeReach.trans {dim zi : Int} {genFatal : Bool} {cap : Nat} {s t u : Pipe F} (h : PipeReach dim zi genFatal cap s t)
    (h2 : PipeReach dim zi genFatal cap t u) : PipeReach dim zi genFatal cap s u := by
  induction h2 with
  | refl => exact h
  | step _ hs ih => exact .step ih hs

/-- The loop over the keys when the imager takes every voxel at once. -/
theorem pipe_keys {dim zi : Int} {genFatal : Bool} {cap : Nat} (hcap : 0 < cap) {s : Pipe F} {j : BvInfo F} {ks : List Key}
    (ho : s.out = none) (hm : s.main = .keys j ks) (hb : s.buf = []) :
    (∀ w, sendKeys j zi ks = some w →
      PipeReach dim zi genFatal cap s { s with main := .waiting, got := s.got ++ w }) ∧
    (sendKeys j zi ks = none → ∃ t, PipeReach dim zi genFatal cap s t ∧ t.out = some none) := by
  induction ks generalizing s with
  | nil =>
    refine ⟨?_, by intro h; cases h⟩
    intro w hw
    injection hw with hw
    subst hw
    have := PipeReach.refl.step (PipeStep.jobDone (dim := dim) (zi := zi) (genFatal := genFatal) (cap := cap) ho hm)
    simpa using this
  | cons k ks ih =>
    by_cases hk : zi = (k.shift j.dx j.dy j.dz).Z
    · by_cases hn : (k.shift j.dx j.dy j.dz).X < 0 ∨ (k.shift j.dx j.dy j.dz).Y < 0 ∨ (k.shift j.dx j.dy j.dz).Z < 0
      · have h1 := PipeReach.refl.step (PipeStep.keySkipped (dim := dim) (zi := zi) (genFatal := genFatal) (cap := cap) ho hm hk hn)
        obtain ⟨i1, i2⟩ := ih (s := { s with main := .keys j ks }) ho rfl hb
        have e : sendKeys j zi (k :: ks) = sendKeys j zi ks := by
          rw [sendKeys_cons, if_neg (by simpa using hk), if_pos hn]
        rw [e]
        refine ⟨fun w hw => h1.trans (i1 w hw), fun hw => ?_⟩
        obtain ⟨t, ht, h2⟩ := i2 hw
        exact ⟨t, h1.trans ht, h2⟩
      · have h1 := PipeReach.refl.step (PipeStep.keySent (dim := dim) (zi := zi) (genFatal := genFatal) (cap := cap) ho hm hk hn
          (by rw [hb]; exact hcap))
        have h2 := h1.step (PipeStep.received (dim := dim) (zi := zi) (genFatal := genFatal) (cap := cap)
          (v := ⟨(k.shift j.dx j.dy j.dz).X, (k.shift j.dx j.dy j.dz).Y, j.base⟩) (vs := []) ho (by rw [hb]; rfl))
        obtain ⟨i1, i2⟩ := ih (s := { s with main := .keys j ks, buf := [], got := s.got ++ [_] }) ho rfl rfl
        have e : sendKeys j zi (k :: ks) =
            (sendKeys j zi ks).map (⟨(k.shift j.dx j.dy j.dz).X, (k.shift j.dx j.dy j.dz).Y, j.base⟩ :: ·) := by
          rw [sendKeys_cons, if_neg (by simpa using hk), if_neg hn]
        rw [e]
        constructor
        · intro w hw
          cases hs : sendKeys j zi ks with
          | none => rw [hs] at hw; cases hw
          | some w' =>
            rw [hs] at hw
            injection hw with hw
            subst hw
            have := h2.trans (i1 w' hs)
            rw [List.append_assoc] at this
            have e2 : ({ s with main := .waiting, buf := [], got := s.got ++ ([⟨(k.shift j.dx j.dy j.dz).X, (k.shift j.dx j.dy j.dz).Y, j.base⟩] ++ w') } : Pipe F) =
                { s with main := .waiting, got := s.got ++ (⟨(k.shift j.dx j.dy j.dz).X, (k.shift j.dx j.dy j.dz).Y, j.base⟩ :: w') } := by
              rw [hb]; rfl
            rw [← e2]
            exact this
        · intro hw
          cases hs : sendKeys j zi ks with
          | some w' => rw [hs] at hw; cases hw
          | none =>
            obtain ⟨t, ht, h3⟩ := i2 hs
            exact ⟨t, h2.trans ht, h3⟩
    · refine ⟨?_, fun _ => ⟨_, PipeReach.refl.step (PipeStep.keyFatal ho hm hk), rfl⟩⟩
      intro w hw
      rw [sendKeys_cons, if_pos (by simpa using hk)] at hw
      cases hw

/-- One job. -/
theorem pipe_job {dim zi : Int} {genFatal : Bool} {cap : Nat} (hcap : 0 < cap) {s : Pipe F} {j : BvInfo F} {js : List (BvInfo F)}
    (ho : s.out = none) (hm : s.main = .waiting) (hg : s.gen = j :: js) (hb : s.buf = []) {res : Option (List VoxelInfo)}
    (hr : SendRun zi j res) :
    (∀ w, res = some w → PipeReach dim zi genFatal cap s { s with gen := js, main := .waiting, got := s.got ++ w }) ∧
    (res = none → ∃ t, PipeReach dim zi genFatal cap s t ∧ t.out = some none) := by
  have h1 := PipeReach.refl.step (PipeStep.handOver (dim := dim) (zi := zi) (genFatal := genFatal) (cap := cap) ho hg hm)
  obtain ⟨out, hv, hout⟩ := hr
  have hfail : (∀ b', out ≠ .ok b') → res = some [] → (∀ w, res = some w →
      PipeReach dim zi genFatal cap s { s with gen := js, main := .waiting, got := s.got ++ w }) ∧
    (res = none → ∃ t, PipeReach dim zi genFatal cap s t ∧ t.out = some none) := by
    rintro hn rfl
    refine ⟨?_, by intro h; cases h⟩
    intro w hw
    injection hw with hw
    subst hw
    have := h1.step (PipeStep.voxelizeFailed (dim := dim) (zi := zi) (genFatal := genFatal) (cap := cap) ho rfl hv hn)
    rw [List.append_nil]
    exact this
  cases out with
  | err => exact hfail (by intro b' e; cases e) hout
  | panic => exact hfail (by intro b' e; cases e) hout
  | ok b' =>
    obtain ⟨ord, hp, hres⟩ := hout
    have h2 := h1.step (PipeStep.voxelized (dim := dim) (zi := zi) (genFatal := genFatal) (cap := cap) ho rfl hv hp)
    obtain ⟨i1, i2⟩ := pipe_keys (dim := dim) (zi := zi) (genFatal := genFatal) hcap
      (s := { s with gen := js, main := .keys j ord }) (j := j) (ks := ord) ho rfl hb
    rw [hres]
    refine ⟨fun w hw => h2.trans (i1 w hw), fun hw => ?_⟩
    obtain ⟨t, ht, h3⟩ := i2 hw
    exact ⟨t, h2.trans ht, h3⟩

/-- All jobs. -/
theorem pipe_jobs {dim zi : Int} {genFatal : Bool} {cap : Nat} (hcap : 0 < cap) {s : Pipe F}
    (ho : s.out = none) (hm : s.main = .waiting) (hb : s.buf = []) {res : Option (List VoxelInfo)} (hr : SendAll zi s.gen res) :
    (∀ w, res = some w → PipeReach dim zi genFatal cap s { s with gen := [], main := .waiting, got := s.got ++ w }) ∧
    (res = none → ∃ t, PipeReach dim zi genFatal cap s t ∧ t.out = some none) := by
  generalize hg : s.gen = g at hr
  induction hr generalizing s with
  | nil =>
    refine ⟨?_, by intro h; cases h⟩
    intro w hw
    injection hw with hw
    subst hw
    rw [List.append_nil, ← hg, ← hm]
    exact .refl
  | @fatal j js h =>
    refine ⟨(by intro w hw; cases hw), fun _ => ?_⟩
    exact (pipe_job hcap ho hm hg hb h).2 rfl
  | @cons j js vs r h hrest ih =>
    have h1 := (pipe_job (dim := dim) (genFatal := genFatal) hcap ho hm hg hb h).1 vs rfl
    obtain ⟨i1, i2⟩ := ih (s := { s with gen := js, main := .waiting, got := s.got ++ vs }) ho rfl hb rfl
    cases r with
    | none =>
      refine ⟨(by intro w hw; cases hw), fun _ => ?_⟩
      obtain ⟨t, ht, h2⟩ := i2 rfl
      exact ⟨t, h1.trans ht, h2⟩
    | some u =>
      refine ⟨?_, by intro h; cases h⟩
      intro w hw
      injection hw with hw
      subst hw
      have := h1.trans (i1 u rfl)
      rw [List.append_assoc] at this
      exact this

/-- **C121.** The schedule makes no difference: the images and fatal exits that the three goroutines can come to are
    exactly those of doing the jobs one after the other and then painting the image; and if the generator meets a fatal
    file there is never an image. -/
theorem pipe_outcomes {dim zi : Int} {genFatal : Bool} {cap : Nat} (hcap : 0 < cap) (jobs : List (BvInfo F)) (res : Option Image) :
    (∃ s, PipeReach dim zi genFatal cap (Pipe.init jobs) s ∧ s.out = some res) ↔
      (genFatal = true ∧ res = none) ∨ (genFatal = false ∧ SliceRun dim zi jobs res) := by
  constructor
  · rintro ⟨s, h, ho⟩
    cases res with
    | some img =>
      have hinv := pipeInv_reach h
      obtain ⟨hm, hb, hi⟩ := hinv.done img ho
      have hf := (hinv.closedGen (hinv.closedMain hm)).2
      exact Or.inr ⟨hf, some s.got, (pipe_leaves_nothing h ho).2.2.2.2, img, hi, rfl⟩
    | none =>
      rcases (pipeInv_reach h).died ho with hf | hs
      · exact Or.inl ⟨hf, rfl⟩
      · cases hf : genFatal with
        | true => exact Or.inl ⟨rfl, rfl⟩
        | false => exact Or.inr ⟨rfl, none, hs, rfl⟩
  · rintro (⟨hf, rfl⟩ | ⟨hf, r, hs, hres⟩)
    · obtain ⟨r, hs⟩ := sendAll_defined zi jobs
      obtain ⟨i1, i2⟩ := pipe_jobs (dim := dim) (genFatal := genFatal) hcap (s := Pipe.init jobs) rfl rfl rfl hs
      cases r with
      | none => exact i2 rfl
      | some w => exact ⟨_, (i1 w rfl).step (.genDies rfl rfl hf), rfl⟩
    · obtain ⟨i1, i2⟩ := pipe_jobs (dim := dim) (genFatal := genFatal) hcap (s := Pipe.init jobs) rfl rfl rfl hs
      cases r with
      | none =>
        dsimp only at hres
        subst hres
        exact i2 rfl
      | some w =>
        obtain ⟨img, hi, rfl⟩ := hres
        have h1 := (i1 w rfl).step (.genCloses rfl rfl hf rfl)
        have h2 := h1.step (.mainCloses rfl rfl rfl rfl)
        exact ⟨_, h2.step (.imaged (img := img) rfl rfl rfl hi), rfl⟩

/-! ## The agent's generator -/

theorem cutPlan_ok (L : Layout F) (mbb : Box F) (dim nx ny nz : Int) (cuts : List (Mesh F × Box F)) :
    ((cutPlan L mbb dim nx ny nz cuts).2 = false ↔ ∀ c ∈ cuts, ∃ L', layout c.2 (boxScale c.2) dim nx ny nz = .ok L') ∧
    ((cutPlan L mbb dim nx ny nz cuts).2 = false →
      (cutPlan L mbb dim nx ny nz cuts).1 = cuts.flatMap fun c => fileJobs L mbb nx ny nz false c.1) := by
  induction cuts with
  | nil => exact ⟨by simp [cutPlan], fun _ => rfl⟩
  | cons c cs ih =>
    unfold cutPlan
    cases hl : layout c.2 (boxScale c.2) dim nx ny nz with
    | ok L' =>
      dsimp only
      refine ⟨?_, ?_⟩
      · rw [ih.1]
        constructor
        · intro h a ha
          rcases List.mem_cons.mp ha with rfl | ha
          · exact ⟨L', hl⟩
          · exact h a ha
        · intro h a ha
          exact h a (List.mem_cons_of_mem _ ha)
      · intro h
        rw [ih.2 h, List.flatMap_cons]
    | err =>
      refine ⟨⟨(by intro h; cases h), fun h => ?_⟩, (by intro h; cases h)⟩
      obtain ⟨L', h⟩ := h c List.mem_cons_self
      rw [hl] at h; cases h
    | panic =>
      refine ⟨⟨(by intro h; cases h), fun h => ?_⟩, (by intro h; cases h)⟩
      obtain ⟨L', h⟩ := h c List.mem_cons_self
      rw [hl] at h; cases h

/-- **C121.** The agent: whatever the schedule of its generator, voxelizer and imager, a slice request ends with exactly
    the outcomes of the files' jobs done one after the other (to which C41, C42 and C65 apply). -/
theorem agent_pipe_outcomes (dim nx ny nz zi : Int) {cap : Nat} (hcap : 0 < cap) (files : List (Mesh F × Box F)) (res : Option Image) :
    (∃ s, PipeReach dim zi (genPlan dim nx ny nz files).2 cap (Pipe.init (genPlan dim nx ny nz files).1) s ∧ s.out = some res) ↔
      AgentSliceRun dim nx ny nz zi files res := by
  rw [pipe_outcomes hcap]
  cases files with
  | nil =>
    unfold genPlan AgentSliceRun
    simp
  | cons base cuts =>
    unfold genPlan AgentSliceRun
    dsimp only
    have hbad : (∀ L, layout base.2 (boxScale base.2) dim nx ny nz ≠ .ok L) →
        ((True ∧ res = none) ↔ (∃ L, layout base.2 (boxScale base.2) dim nx ny nz = .ok L ∧
          (∀ c ∈ cuts, ∃ L', layout c.2 (boxScale c.2) dim nx ny nz = .ok L') ∧
          SliceRun dim zi (svxJobs L base.2 nx ny nz (base :: cuts)) res) ∨
        ((¬ ∀ f ∈ base :: cuts, ∃ L, layout f.2 (boxScale f.2) dim nx ny nz = .ok L) ∧ res = none)) := by
      intro hb
      constructor
      · rintro ⟨-, h⟩
        refine Or.inr ⟨?_, h⟩
        intro h
        obtain ⟨L, h⟩ := h base List.mem_cons_self
        exact hb L h
      · rintro (⟨L, h, -⟩ | ⟨-, h⟩)
        · exact absurd h (hb L)
        · exact ⟨trivial, h⟩
    cases hl : layout base.2 (boxScale base.2) dim nx ny nz with
    | err =>
      rw [hl] at hbad
      simpa using hbad (by intro L e; cases e)
    | panic =>
      rw [hl] at hbad
      simpa using hbad (by intro L e; cases e)
    | ok L =>
      dsimp only
      obtain ⟨c1, c2⟩ := cutPlan_ok L base.2 dim nx ny nz cuts
      have hall : (∀ f ∈ base :: cuts, ∃ L, layout f.2 (boxScale f.2) dim nx ny nz = .ok L) ↔
          ∀ c ∈ cuts, ∃ L', layout c.2 (boxScale c.2) dim nx ny nz = .ok L' := by
        constructor
        · intro h a ha
          exact h a (List.mem_cons_of_mem _ ha)
        · intro h a ha
          rcases List.mem_cons.mp ha with rfl | ha
          · exact ⟨L, hl⟩
          · exact h a ha
      rw [hall, ← c1]
      cases hf : (cutPlan L base.2 dim nx ny nz cuts).2 with
      | true =>
        constructor
        · rintro (⟨-, h⟩ | ⟨h, -⟩)
          · exact Or.inr ⟨by simp, h⟩
          · cases h
        · rintro (⟨L', -, h, -⟩ | ⟨-, h⟩)
          · cases h
          · exact Or.inl ⟨rfl, h⟩
      | false =>
        have e : svxJobs L base.2 nx ny nz (base :: cuts) =
            fileJobs L base.2 nx ny nz true base.1 ++ (cutPlan L base.2 dim nx ny nz cuts).1 := by
          rw [c2 hf]; rfl
        constructor
        · rintro (⟨h, -⟩ | ⟨-, h⟩)
          · cases h
          · exact Or.inl ⟨L, rfl, rfl, by rw [e]; exact h⟩
        · rintro (⟨L', h1, -, h⟩ | ⟨h, -⟩)
          · injection h1 with h1
            subst h1
            rw [e] at h
            exact Or.inr ⟨rfl, h⟩
          · exact absurd rfl h

/-- **C121.** Every slice request comes to an end, whatever the schedule: from every state an outcome can be reached, and
    (`pipe_terminates`) no schedule avoids it. -/
theorem pipe_ends {dim zi : Int} {genFatal : Bool} {cap : Nat} (hcap : 0 < cap) {jobs : List (BvInfo F)} {s : Pipe F}
    (h : PipeReach dim zi genFatal cap (Pipe.init jobs) s) : ∃ t res, PipeReach dim zi genFatal cap s t ∧ t.out = some res := by
  have key : ∀ x : Nat ×ₗ Nat, ∀ s : Pipe F, pipeLeft s = x → PipeReach dim zi genFatal cap (Pipe.init jobs) s →
      ∃ t res, PipeReach dim zi genFatal cap s t ∧ t.out = some res := by
    intro x
    induction x using WellFoundedLT.induction with
    | ind x ih =>
      intro s hx h
      cases ho : s.out with
      | some res => exact ⟨s, res, .refl, ho⟩
      | none =>
        obtain ⟨u, hu⟩ := pipe_progress hcap h ho
        obtain ⟨t, res, ht, hres⟩ := ih _ (by rw [← hx]; exact pipeLeft_step hu) u rfl (h.step hu)
        exact ⟨t, res, (PipeReach.refl.step hu).trans ht, hres⟩
  exact key _ s rfl h

/-- **C121.** In exact arithmetic: under every schedule of the agent's goroutines a slice request with one tile along z
    whose files are all valid ends with the image that shows the base minus the cuts, and never with a fatal exit. -/
theorem agent_pipe_image (dim nx ny zi : Int) {cap : Nat} (base : Mesh ℚ × Box ℚ) (cuts : List (Mesh ℚ × Box ℚ))
    (hcap : 0 < cap) (hok : ∀ f ∈ base :: cuts, ∃ L, layout f.2 (boxScale f.2) dim nx ny 1 = .ok L)
    (hs : 0 < boxScale base.2) (hd : 0 < dim) (hnx : 0 < nx) (hz : 0 ≤ zi) :
    ∃ L, layout base.2 (boxScale base.2) dim nx ny 1 = .ok L ∧ (0 < L.dimX → 0 < L.dimY →
      ∀ s res, PipeReach dim zi (genPlan dim nx ny 1 (base :: cuts)).2 cap (Pipe.init (genPlan dim nx ny 1 (base :: cuts)).1) s →
        s.out = some res → ∃ img, res = some img ∧
        Shows img (dim + 2) (dim + 2)
          (SliceSolid (wholeModel L base.2 nx ny 1) base.1 (cuts.map Prod.fst) zi)
          (fun i j => (i - 1, dim - j))) := by
  obtain ⟨L, hL, h⟩ := agent_files_exact dim nx ny zi base cuts hok hs hd hnx hz
  refine ⟨L, hL, ?_⟩
  intro px py s res hr ho
  exact h px py res ((agent_pipe_outcomes dim nx ny 1 zi hcap (base :: cuts) res).mp ⟨s, hr, ho⟩)

/-! ## The command -/

namespace Local
open Cmd Net

theorem readsAll_reads (lib : Lib F) (d : Disk) (out : Bytes) (ns : List Bytes) (r : Option (List (List (Tri (Vec F))))) :
    ReadsAll lib d out ns r ↔ ∃ reads, List.Forall₂ (Reads lib d out) ns reads ∧ r = reads.mapM id := by
  constructor
  · intro h
    induction h with
    | nil => exact ⟨[], .nil, rfl⟩
    | @fatal n ns h =>
      refine ⟨none :: ns.map fun n => (d n).bind lib.load, .cons h ?_, rfl⟩
      rw [List.forall₂_map_right_iff]
      exact List.forall₂_same.mpr fun n _ => Or.inl rfl
    | @cons n ns ts r h hr ih =>
      obtain ⟨reads, h1, rfl⟩ := ih
      refine ⟨some ts :: reads, .cons h h1, ?_⟩
      rw [List.mapM_cons]
      cases reads.mapM id <;> rfl
  · rintro ⟨reads, h, rfl⟩
    induction h with
    | nil => exact .nil
    | @cons n x ns xs h hr ih =>
      cases x with
      | none => exact .fatal h
      | some ts =>
        have := ReadsAll.cons h ih
        rw [List.mapM_cons]
        cases hm : xs.mapM id with
        | none => rw [hm] at this; exact this
        | some us => rw [hm] at this; exact this

theorem localCutPlan_ok (lib : Lib F) (L : Layout F) (mbb : Box F) (fl : LocalFlags) (rs : List (Option (List (Tri (Vec F))))) :
    (rs.mapM id = none → (cutPlan lib L mbb fl rs).2 = true) ∧
    ∀ us, rs.mapM id = some us → (cutPlan lib L mbb fl rs).2 = false ∧
      (cutPlan lib L mbb fl rs).1 = (us.map fun ts => (lib.mesh ts, lib.bbox ts)).flatMap fun c => fileJobs L mbb fl.nx fl.ny fl.nz false c.1 := by
  induction rs with
  | nil =>
    refine ⟨(by intro h; cases h), ?_⟩
    intro us h
    injection h with h
    subst h
    exact ⟨rfl, rfl⟩
  | cons x xs ih =>
    cases x with
    | none => exact ⟨fun _ => rfl, by intro us h; cases h⟩
    | some ts =>
      rw [List.mapM_cons]
      cases hm : xs.mapM id with
      | none => exact ⟨fun _ => ih.1 hm, by intro us h; cases h⟩
      | some us =>
        refine ⟨(by intro h; cases h), ?_⟩
        intro us' h
        injection h with h
        subst h
        obtain ⟨i1, i2⟩ := ih.2 us hm
        refine ⟨i1, ?_⟩
        show fileJobs _ _ _ _ _ _ _ ++ (cutPlan lib L mbb fl xs).1 = _
        rw [i2]
        rfl

/-- **C121.** The command: whatever the schedule of its three goroutines, a slice ends with exactly the outcomes of the
    files' jobs done one after the other (to which C92 applies). -/
theorem local_pipe_outcomes (lib : Lib F) (d : Disk) (fl : LocalFlags) (zi : Nat) {cap : Nat} (hcap : 0 < cap) (res : Option Image) :
    (∃ reads, List.Forall₂ (Reads lib d (zipName fl.dim)) (split 44 fl.stl) reads ∧
      ∃ s, PipeReach fl.dim zi (genPlan lib fl reads).2 cap (Pipe.init (genPlan lib fl reads).1) s ∧ s.out = some res) ↔
      LocalSlice lib d fl zi res := by
  unfold LocalSlice
  have hne : ∀ reads, List.Forall₂ (Reads lib d (zipName fl.dim)) (split 44 fl.stl) reads → reads ≠ [] := by
    rintro reads h rfl
    exact split_ne 44 fl.stl (List.forall₂_nil_right_iff.mp h)
  have key : ∀ reads, reads ≠ [] → ((∃ s, PipeReach fl.dim zi (genPlan lib fl reads).2 cap (Pipe.init (genPlan lib fl reads).1) s ∧ s.out = some res) ↔
      match reads.mapM id with
      | none => res = none
      | some [] => res = none
      | some (base :: cuts) =>
        match layout (lib.bbox base) (boxScale (lib.bbox base)) fl.dim fl.nx fl.ny fl.nz with
        | .ok L => SliceRun fl.dim zi (svxJobs L (lib.bbox base) fl.nx fl.ny fl.nz
            ((lib.mesh base, lib.bbox base) :: cuts.map fun ts => (lib.mesh ts, lib.bbox ts))) res
        | _ => res = none) := by
    intro reads hr
    rw [pipe_outcomes hcap]
    cases reads with
    | nil => exact absurd rfl hr
    | cons x rs =>
      cases x with
      | none =>
        show (true = true ∧ res = none) ∨ (true = false ∧ _) ↔ res = none
        simp
      | some base =>
        rw [List.mapM_cons]
        unfold genPlan
        dsimp only
        cases hl : layout (lib.bbox base) (boxScale (lib.bbox base)) fl.dim fl.nx fl.ny fl.nz with
        | ok L =>
          obtain ⟨c1, c2⟩ := localCutPlan_ok lib L (lib.bbox base) fl rs
          cases hm : rs.mapM id with
          | none =>
            show _ ↔ res = none
            rw [c1 hm]
            simp
          | some us =>
            obtain ⟨e1, e2⟩ := c2 us hm
            show _ ↔ (match layout (lib.bbox base) (boxScale (lib.bbox base)) fl.dim fl.nx fl.ny fl.nz with
              | .ok L => SliceRun fl.dim zi (svxJobs L (lib.bbox base) fl.nx fl.ny fl.nz
                  ((lib.mesh base, lib.bbox base) :: us.map fun ts => (lib.mesh ts, lib.bbox ts))) res
              | _ => res = none)
            rw [hl]
            dsimp only
            rw [e1, e2]
            unfold svxJobs
            simp
        | err =>
          cases hm : rs.mapM id with
          | none => show _ ↔ res = none; simp
          | some us =>
            show _ ↔ (match layout (lib.bbox base) (boxScale (lib.bbox base)) fl.dim fl.nx fl.ny fl.nz with
              | .ok L => SliceRun fl.dim zi (svxJobs L (lib.bbox base) fl.nx fl.ny fl.nz
                  ((lib.mesh base, lib.bbox base) :: us.map fun ts => (lib.mesh ts, lib.bbox ts))) res
              | _ => res = none)
            rw [hl]
            simp
        | panic =>
          cases hm : rs.mapM id with
          | none => show _ ↔ res = none; simp
          | some us =>
            show _ ↔ (match layout (lib.bbox base) (boxScale (lib.bbox base)) fl.dim fl.nx fl.ny fl.nz with
              | .ok L => SliceRun fl.dim zi (svxJobs L (lib.bbox base) fl.nx fl.ny fl.nz
                  ((lib.mesh base, lib.bbox base) :: us.map fun ts => (lib.mesh ts, lib.bbox ts))) res
              | _ => res = none)
            rw [hl]
            simp
  constructor
  · rintro ⟨reads, h, hs⟩
    exact ⟨_, (readsAll_reads lib d _ _ _).mpr ⟨reads, h, rfl⟩, (key reads (hne reads h)).mp hs⟩
  · rintro ⟨files, h, hs⟩
    obtain ⟨reads, h1, rfl⟩ := (readsAll_reads lib d _ _ _).mp h
    exact ⟨reads, h1, (key reads (hne reads h1)).mpr hs⟩

end Local

/-! ## The hypotheses are met: the first slice of a triangle, in two tiles -/

/-- `agent_pipe_outcomes`, `pipe_leaves_nothing`: the agent's goroutines can come to the end. -/
theorem exPipe : ∃ (s : Pipe ℚ) (img : Image),
    PipeReach 4 0 (genPlan 4 2 1 1 [(exTri, exBox)]).2 1000 (Pipe.init (genPlan 4 2 1 1 [(exTri, exBox)]).1) s ∧ s.out = some (some img) := by
  obtain ⟨img, h⟩ := exAgent
  obtain ⟨s, hs⟩ := (agent_pipe_outcomes 4 2 1 1 0 (cap := 1000) (by norm_num) [(exTri, exBox)] (some img)).mpr h
  exact ⟨s, img, hs⟩

example : ∃ (s : Pipe ℚ), s.gen = [] ∧ s.buf = [] ∧ SendAll 0 (genPlan 4 2 1 1 [(exTri, exBox)]).1 (some s.got) := by
  obtain ⟨s, img, h, ho⟩ := exPipe
  obtain ⟨h1, -, -, h2, h3⟩ := pipe_leaves_nothing h ho
  exact ⟨s, h1, h2, h3⟩

/-- `pipe_progress` and `pipe_ends` at the beginning, where two jobs wait. -/
example : (genPlan 4 2 1 1 [(exTri, exBox)]).1.length = 2 ∧
    (∃ t, PipeStep 4 0 (genPlan 4 2 1 1 [(exTri, exBox)]).2 1000 (Pipe.init (genPlan 4 2 1 1 [(exTri, exBox)]).1) t) ∧
    ∃ t res, PipeReach 4 0 (genPlan 4 2 1 1 [(exTri, exBox)]).2 1000 (Pipe.init (genPlan 4 2 1 1 [(exTri, exBox)]).1) t ∧ t.out = some res := by
  refine ⟨?_, pipe_progress (by norm_num) .refl rfl, pipe_ends (by norm_num) .refl⟩
  unfold genPlan
  dsimp only
  rw [exBox_layout]
  rfl

/-- `agent_pipe_image` on this run. -/
example : ∃ img : Image, Shows img 6 6
    (SliceSolid (wholeModel ⟨1, 1, 4, 4, 4, 2, 4, 4, 4⟩ exBox 2 1 1) exTri [] 0) (fun i j => (i - 1, 4 - j)) := by
  obtain ⟨s, img, h, ho⟩ := exPipe
  obtain ⟨L, hl, hf⟩ := agent_pipe_image 4 2 1 0 (cap := 1000) (exTri, exBox) [] (by norm_num) (by
    intro f hf
    rw [List.mem_singleton] at hf
    subst hf
    exact ⟨_, exBox_layout⟩) (by decide +kernel) (by norm_num) (by norm_num) (by norm_num)
  rw [exBox_layout] at hl
  cases hl
  obtain ⟨img', e, hs⟩ := hf (by decide) (by decide) s _ h ho
  exact ⟨img', hs⟩

end StlDice
