import Verif.Model.SvxKill
import Verif.Props.SvxCmd
import Verif.Props.SvxLocalBack
import Verif.Props.MrCmd

/-! # C132: svx2stl, stl2svx and stldice-mr killed and run again -/

namespace StlDice
namespace Cmd
open BinVOX Spec

section
variable {F : Type} [GoFloat F] {unzip : Bytes → Option (List (ZFile F))} {lib : GL F} {args : List Bytes}

theorem svx_killed_other {d d' : Disk} {files : List Bytes} (h : Svx2StlKilled unzip lib d files d') {n : Bytes}
    (hn : ∀ a ∈ files, n ≠ svxOut a) : d' n = d n := by
  induction h with
  | before => rfl
  | during _ _ _ => exact put_other _ _ (hn _ (by simp))
  | next _ _ hs _ ih => rw [ih fun a ha => hn a (by simp [ha]), save_other hs (hn _ (by simp))]

/-- **C132.** However often svx2stl was started before, and however each start ended, no file but the outputs of its
    arguments changed. -/
theorem svx2stl_tries_others {d d₁ : Disk} (h : Svx2StlTries unzip lib args d d₁) {n : Bytes}
    (hn : ∀ a ∈ args, ¬ SvxOutName a n) : d₁ n = d n := by
  induction h with
  | none => rfl
  | ran _ h ih => rw [svx2stl_touches h hn, ih]
  | killed _ hp hk ih =>
    rw [svx_killed_other hk, ih]
    intro a ha e
    refine hn a ?_ ((svxOut_iff _ _).mp e.symm)
    rcases (svx_line.mp hp).2 with ⟨rfl, _⟩ | rfl
    · exact ha
    · simp [ha]

theorem svx_tries_files {d d₁ : Disk} {sets : List (Bytes × Bytes)} {files : List Bytes}
    (hp : Flag.parse (fun _ => none) (fun _ => false) args = .ok sets files) (h : Svx2StlTries unzip lib args d d₁) {n : Bytes}
    (hn : ∀ a ∈ files, n ≠ svxOut a) : d₁ n = d n := by
  induction h with
  | none => rfl
  | ran _ h ih =>
    rw [← ih]
    cases h with
    | usage h => rfl
    | run h hr =>
      rw [hp] at h
      injection h with _ h
      subst h
      exact svx_loop_other hr hn
  | killed _ h hk ih =>
    rw [hp] at h
    injection h with _ h
    subst h
    rw [svx_killed_other hk hn, ih]

theorem svx_loop_move {files : List Bytes} : ∀ {d e d' : Disk}, Apart files → (∀ n, (∀ a ∈ files, n ≠ svxOut a) → e n = d n) →
    Svx2StlLoop unzip lib e files d' .done → Svx2StlLoop unzip lib d files d' .done := by
  induction files with
  | nil =>
    intro d e d' _ hde h
    have : e = d := funext fun n => hde n (by simp)
    rw [← this]
    exact h
  | cons a args ih =>
    intro d e d' hap hde h
    generalize he : Exit.done = x at h
    cases h with
    | unreadable => cases he
    | panics => cases he
    | unsaved => cases he
    | next ho ht hs hr =>
      subst he
      have hopen := ho
      rw [svxOpen_congr (hde a fun x hx e => hap x hx a (by simp) ((svxOut_iff _ _).mp e.symm))] at hopen
      cases hs
      refine .next hopen ht .ok (ih (apart_tail hap) ?_ hr)
      intro n hn
      by_cases hna : n = svxOut a
      · subst hna
        rw [put_self, put_self]
      · rw [put_other _ _ hna, put_other _ _ hna]
        refine hde n fun x hx => ?_
        rcases List.mem_cons.mp hx with rfl | hx
        · exact hna
        · exact hn x hx

/-- **C132.** If no argument of svx2stl is the output of an argument, it can be killed, and can fail, any number of times: a
    run that then ends well leaves the files that a run on the original files can leave, all of them, and each of those
    can be left. -/
theorem svx2stl_run_again {sets : List (Bytes × Bytes)} {files : List Bytes}
    (hp : Flag.parse (fun _ => none) (fun _ => false) args = .ok sets files) (hap : Apart files)
    {d d₁ d' : Disk} (h : Svx2StlTries unzip lib args d d₁) :
    Svx2StlProc unzip lib d₁ args d' .done ↔ Svx2StlProc unzip lib d args d' .done := by
  have key : ∀ {e e' : Disk}, (∀ n, (∀ a ∈ files, n ≠ svxOut a) → e n = e' n) → Svx2StlProc unzip lib e args d' .done →
      Svx2StlProc unzip lib e' args d' .done := by
    intro e e' he hr
    generalize hx : Exit.done = x at hr
    cases hr with
    | usage h => rw [hp] at h; cases h
    | run h hr =>
      subst hx
      have h' := h
      rw [hp] at h
      injection h with _ h
      subst h
      exact .run hp (svx_loop_move hap he hr)
  exact ⟨key fun n hn => svx_tries_files hp h hn, key fun n hn => (svx_tries_files hp h hn).symm⟩

/-- **C132 (the boundary).** If an argument is the output of a later one, a kill can leave it empty, and then no start
    ends well any more, or changes anything. -/
theorem svx2stl_killed_in_place {b c : Bytes} (ho : SvxOutName c b) (hz : unzip [] = none) {sets : List (Bytes × Bytes)}
    (hp : Flag.parse (fun _ => none) (fun _ => false) args = .ok sets [b, c])
    {d d' : Disk} (h : Svx2StlProc unzip lib d args d' .done) :
    ∃ d₁, Svx2StlTries unzip lib args d d₁ ∧ d₁ b = some [] ∧
      (∀ d₂ e, Svx2StlProc unzip lib d₁ args d₂ e → d₂ = d₁ ∧ e = .fatal) ∧ ∀ d₂, Svx2StlTries unzip lib args d₁ d₂ → d₂ = d₁ := by
  generalize hx : Exit.done = x at h
  cases h with
  | usage h => rw [hp] at h; cases h
  | run h hr =>
    subst hx
    rw [hp] at h
    injection h with _ h
    subst h
    generalize hx : Exit.done = x at hr
    cases hr with
    | unreadable => cases hx
    | panics => cases hx
    | unsaved => cases hx
    | next ho1 ht1 hs1 hr =>
      subst hx
      generalize hx : Exit.done = x at hr
      cases hr with
      | unreadable => cases hx
      | panics => cases hx
      | unsaved => cases hx
      | next ho2 ht2 hs2 hr =>
        have k := Svx2StlKilled.next ho1 ht1 hs1 (.during (args := []) ho2 ht2 (p := []) List.nil_prefix)
        rw [(svxOut_iff c b).mpr ho] at k
        have hd1 : ∀ y : Disk, (put y b [] : Disk) b = some [] := fun y => put_self _ _ _
        generalize hk : put _ b [] = d₁ at k
        have hempty : d₁ b = some [] := by rw [← hk]; exact hd1 _
        have hopen : svxOpen unzip d₁ b = .err := by
          unfold svxOpen
          rw [hempty]
          show (match unzip [] with | none => Res.err | some files => svxLoad files) = Res.err
          rw [hz]
        have hproc : ∀ d₂ e, Svx2StlProc unzip lib d₁ args d₂ e → d₂ = d₁ ∧ e = .fatal := by
          intro d₂ e h
          cases h with
          | usage h => rw [hp] at h; cases h
          | run h hr =>
            rw [hp] at h
            injection h with _ h
            subst h
            cases hr with
            | unreadable _ => exact ⟨rfl, rfl⟩
            | panics h => rw [hopen] at h; cases h
            | unsaved h => rw [hopen] at h; cases h
            | next h => rw [hopen] at h; cases h
        refine ⟨d₁, .killed (.none d) hp k, hempty, hproc, ?_⟩
        intro d₂ ht
        induction ht with
        | none => rfl
        | ran _ hr ih =>
          rw [ih] at hr
          exact (hproc _ _ hr).1
        | killed _ h hk ih =>
          rw [ih] at hk
          rw [hp] at h
          injection h with _ h
          subst h
          cases hk with
          | before => rfl
          | during h => rw [hopen] at h; cases h
          | next h => rw [hopen] at h; cases h

end

/-! ### The hypotheses are met -/

/-- svx2stl, killed when it has created its output, and run again. -/
example (lib : GL ℚ) : ∃ d₁ d' : Disk, Svx2StlTries oneZip lib [ascii "a.svx"] oneDisk d₁ ∧ d₁ (ascii "a.stl") = some [] ∧
    Svx2StlProc oneZip lib d₁ [ascii "a.svx"] d' .done := by
  have hp : Flag.parse (fun _ => none) (fun _ => false) [ascii "a.svx"] = .ok [] [ascii "a.svx"] := by rfl
  obtain ⟨d', h⟩ := oneProc lib
  obtain ⟨d2, hr⟩ := oneRun lib
  have ho : svxOut (ascii "a.svx") = ascii "a.stl" := (svxOut_iff _ _).mpr oneDisk_ready.2.2
  cases hr with
  | next h1 h2 h3 h4 =>
    have k : Svx2StlTries oneZip lib [ascii "a.svx"] oneDisk (put oneDisk (svxOut (ascii "a.svx")) []) :=
      .killed (.none _) hp (.during h1 h2 List.nil_prefix)
    exact ⟨_, d', k, by rw [ho]; exact put_self _ _ _, (svx2stl_run_again hp oneDisk_ready.1 k).mpr h⟩

/-- `svx2stl a.stl a.svx`, where `a.stl` is an archive too: the first start may go well, but one kill and none does. -/
example (lib : GL ℚ) : ∃ d d' d₁ : Disk, Svx2StlProc oneZip lib d [ascii "a.stl", ascii "a.svx"] d' .done ∧
    Svx2StlTries oneZip lib [ascii "a.stl", ascii "a.svx"] d d₁ ∧
    ∀ d₂ e, Svx2StlProc oneZip lib d₁ [ascii "a.stl", ascii "a.svx"] d₂ e → d₂ = d₁ ∧ e = .fatal := by
  have hp : Flag.parse (fun _ => none) (fun _ => false) [ascii "a.stl", ascii "a.svx"] = .ok [] [ascii "a.stl", ascii "a.svx"] := by rfl
  have hsvx : ∃ b, svxOpen oneZip oneDisk (ascii "a.svx") = .ok b := oneDisk_ready.2.1 _ (by simp)
  let d : Disk := put oneDisk (ascii "a.stl") [80]
  have e2 : svxOpen oneZip d (ascii "a.svx") = svxOpen oneZip oneDisk (ascii "a.svx") := svxOpen_congr (put_other _ _ (by decide))
  have e1 : svxOpen oneZip d (ascii "a.stl") = svxOpen oneZip oneDisk (ascii "a.svx") := by
    unfold svxOpen
    rw [show d (ascii "a.stl") = some [80] from put_self _ _ _, show oneDisk (ascii "a.svx") = some [80] from put_self _ _ _]
  have hnone : ∀ n : Bytes, n = ascii "a.stl" → svxOut n = ascii "a.stl.stl" := by
    rintro n rfl
    decide +kernel
  have hap1 : Apart [ascii "a.stl"] := by
    intro a ha b hb h
    rw [List.mem_singleton] at ha hb
    subst ha hb
    have := (svxOut_iff _ _).mpr h
    revert this
    decide +kernel
  obtain ⟨d1, h1⟩ := (svx_succeeds_iff hap1 (unzip := oneZip) (lib := lib) d).mpr (by
    intro a ha
    rw [List.mem_singleton.mp ha, e1]
    exact hsvx)
  have e3 : svxOpen oneZip d1 (ascii "a.svx") = svxOpen oneZip oneDisk (ascii "a.svx") := by
    rw [← e2]
    refine svxOpen_congr (svx_loop_other h1 fun a ha => ?_)
    rw [List.mem_singleton.mp ha, hnone _ rfl]
    decide
  obtain ⟨d2, h2⟩ := (svx_succeeds_iff oneDisk_ready.1 (unzip := oneZip) (lib := lib) d1).mpr (by
    intro a ha
    rw [List.mem_singleton.mp ha, e3]
    exact hsvx)
  have hrun : Svx2StlProc oneZip lib d [ascii "a.stl", ascii "a.svx"] d2 .done := by
    cases h1 with
    | next a1 a2 a3 a4 =>
      cases a4
      exact .run hp (.next a1 a2 a3 h2)
  obtain ⟨d₁, k1, -, k2, -⟩ := svx2stl_killed_in_place oneDisk_ready.2.2 (by rfl) hp hrun
  exact ⟨d, d2, d₁, hrun, k1, k2⟩

end Cmd

namespace Local
open GoFloat BinVOX Cmd Net

section
variable {F : Type} [GoFloat F] {lib : Lib F} {codec : Codec F} {args : List Bytes} {fl : LocalFlags}

/-- **C132.** However often stl2svx was started before, and however each start ended, no file but `out<dim>.svx` changed. -/
theorem local_tries_others (hfl : localFlags args = some fl) {d d₁ : Disk} (h : LocalTries lib codec args d d₁) {n : Bytes}
    (hn : n ≠ zipName fl.dim) : d₁ n = d n := by
  induction h with
  | none => rfl
  | ran _ h ih => rw [local_touches hfl h (Or.inl hn), ih]
  | killed _ h _ _ _ _ _ ih =>
    rw [hfl] at h
    injection h with h
    subst h
    rw [put_other _ _ hn, ih]

theorem readsAll_move {d e : Disk} {out : Bytes} (hde : ∀ n, n ≠ out → e n = d n) {names : List Bytes}
    {r : Option (List (List (Tri (Vec F))))} (h : ReadsAll lib e out names r) : ReadsAll lib d out names r := by
  have one : ∀ {n r}, Reads lib e out n r → Reads lib d out n r := by
    intro n r h
    rcases h with h | h
    · by_cases hn : n = out
      · exact Or.inr hn
      · exact Or.inl (by rw [← hde n hn]; exact h)
    · exact Or.inr h
  induction h with
  | nil => exact .nil
  | fatal h => exact .fatal (one h)
  | cons h _ ih => exact .cons (one h) ih

theorem localSlice_move {d e : Disk} (hde : ∀ n, n ≠ zipName fl.dim → e n = d n) {z : Nat} {res : Option Image}
    (h : LocalSlice lib e fl z res) : LocalSlice lib d fl z res := by
  obtain ⟨files, h1, h2⟩ := h
  exact ⟨files, readsAll_move hde h1, h2⟩

theorem local_move (hfl : localFlags args = some fl) (hb : fl.bucket = []) (hout : zipName fl.dim ∉ split 44 fl.stl)
    {d e d' : Disk} (hde : ∀ n, n ≠ zipName fl.dim → e n = d n) (h : LocalProc lib codec e args d' .done) :
    LocalProc lib codec d args d' .done := by
  have hput : ∀ c, put e (zipName fl.dim) c = put d (zipName fl.dim) c := by
    intro c
    funext n
    by_cases hn : n = zipName fl.dim
    · subst hn
      rw [put_self, put_self]
    · rw [put_other _ _ hn, put_other _ _ hn, hde n hn]
  generalize hx : Exit.done = x at h
  cases h with
  | usage hp => unfold localFlags at hfl; rw [hp] at hfl; cases hfl
  | cloud h hb' => rw [hfl] at h; injection h with h; subst h; exact absurd hb hb'
  | noStl => cases hx
  | unreadable => cases hx
  | refused => cases hx
  | zero => cases hx
  | early => cases hx
  | fatal => cases hx
  | @done fl' n ns base L evs ok _ h _ hs hn hl hr hd =>
    rw [hfl] at h
    injection h with h
    subst h
    have hne : n ≠ zipName fl.dim := by
      rintro rfl
      exact hout (by rw [hn]; simp)
    refine .done (evs := evs) (ok := ok) hfl hb hs hn (by rw [← hde n hne]; exact hl) hr ?_
    cases hd with
    | ok hi he hs =>
      rw [hput]
      exact .ok (fun z hz => localSlice_move hde (hi z hz)) he hs
    | failed hi he =>
      rw [hput]
      exact .failed (fun z hz => localSlice_move hde (hi z hz)) he

/-- **C132.** If the archive is not one of the files of `-stl`, stl2svx can be killed, and can fail, any number of times: a
    run that then reaches its end leaves what a run on the original files can leave, and each such result is possible. -/
theorem stl2svx_run_again (hfl : localFlags args = some fl) (hb : fl.bucket = []) (hout : zipName fl.dim ∉ split 44 fl.stl)
    {d d₁ d' : Disk} (h : LocalTries lib codec args d d₁) :
    LocalProc lib codec d₁ args d' .done ↔ LocalProc lib codec d args d' .done :=
  ⟨local_move hfl hb hout fun _ hn => local_tries_others hfl h hn,
    local_move hfl hb hout fun _ hn => (local_tries_others hfl h hn).symm⟩

end

/-- stl2svx, killed with anything in its archive, and run again. -/
example (codec : Codec ℚ) (p : Bytes) : ∃ d₁ d' : Disk, LocalTries exLib codec exArgs exNetDisk d₁ ∧ d₁ (ascii "out2.svx") = some p ∧
    LocalProc exLib codec d₁ exArgs d' .done := by
  obtain ⟨d', evs, h, -, -⟩ := exLocal_runs codec
  have k : LocalTries exLib codec exArgs exNetDisk (put exNetDisk (zipName exLocal.dim) p) :=
    .killed (.none _) exLocal_flags rfl (by decide) ((split_iff _ _ _).mpr exLocal_split) rfl (exLocal_layout exPyramid)
  refine ⟨_, d', k, ?_, (stl2svx_run_again exLocal_flags rfl ?_ k).mpr h⟩
  · rw [show zipName exLocal.dim = ascii "out2.svx" by decide]
    exact put_self _ _ _
  · rw [(split_iff _ _ _).mpr exLocal_split]
    decide

end Local

namespace Mr
open GoFloat BinVOX Cmd Net

section
variable {F : Type} [GoFloat F] {lib : Lib F} {png : Image → Bytes} {args : List Bytes} {fl : MrFlags}

theorem loadSTL_congr {d e : Disk} {names : List Bytes} (h : ∀ n ∈ names, e n = d n) : loadSTL lib e names = loadSTL lib d names := by
  induction names with
  | nil => rfl
  | cons n ns ih =>
    unfold loadSTL
    rw [h n (by simp), ih fun m hm => h m (by simp [hm])]

/-- The same files of `-stl`. -/
def SameFiles (fl : MrFlags) (d e : Disk) : Prop := ∀ n ∈ split 44 fl.stl, e n = d n

/-- Whatever was loaded from the one disk is loaded from the other, if they are the same to the command. -/
theorem mr_moment_keeps (hfl : mrFlags args = some fl) (hout : ∀ z, mrName fl.dim fl.nx fl.ny fl.nz z ∉ split 44 fl.stl)
    {d d' : Disk} (h : MrMoment lib d args d') : SameFiles fl d d' := by
  intro m hm
  rcases h with rfl | ⟨fl', n, ns, base, L, h1, -, -, -, -, -, h8⟩ | ⟨fl', n, ns, base, cuts, L, ess, h1, -, -, -, -, -, -, h8⟩
  · rfl
  · rw [hfl] at h1
    injection h1 with h1
    subst h1
    exact h8 m fun z e => hout z (by rw [← e]; exact hm)
  · rw [hfl] at h1
    injection h1 with h1
    subst h1
    exact h8 m fun z _ e => hout z (by rw [← e]; exact hm)

theorem mr_tries_keeps (hfl : mrFlags args = some fl) (hout : ∀ z, mrName fl.dim fl.nx fl.ny fl.nz z ∉ split 44 fl.stl)
    {d d₁ : Disk} (h : MrTries lib args d d₁) : SameFiles fl d d₁ := by
  induction h with
  | none => exact fun _ _ => rfl
  | killed _ hm ih => exact fun n hn => (mr_moment_keeps hfl hout hm n hn).trans (ih n hn)

/-- **C132.** However often stldice-mr was started before, and at whatever moments it was killed, no file but the images of
    slices with voxels changed. -/
theorem mr_tries_others (hfl : mrFlags args = some fl) (hout : ∀ z, mrName fl.dim fl.nx fl.ny fl.nz z ∉ split 44 fl.stl)
    {d d₁ : Disk} (h : MrTries lib args d d₁) {base : List (Tri (Vec F))} {cuts : List (List (Tri (Vec F)))} {L : Layout F}
    (hf : loadSTL lib d (split 44 fl.stl) = some (base :: cuts))
    (hL : layout (lib.bbox base) (boxScale (lib.bbox base)) fl.dim fl.nx fl.ny fl.nz = .ok L) {m : Bytes}
    (hm : ∀ z, SliceHit lib L fl base (base :: cuts) z → m ≠ mrName fl.dim fl.nx fl.ny fl.nz z) : d₁ m = d m := by
  induction h with
  | none => rfl
  | killed h hk ih =>
    rw [← ih]
    rcases hk with rfl | ⟨fl', n, ns, base', L', h1, -, h3, h4, h5, h6, h8⟩ |
      ⟨fl', n, ns, base', cuts', L', ess, h1, -, h3, h4, h5, h6, h7, h8⟩
    · rfl
    · rw [hfl] at h1
      injection h1 with h1
      subst h1
      have hsame := loadSTL_congr (lib := lib) (mr_tries_keeps hfl hout h)
      rw [hf, h3] at hsame
      unfold loadSTL at hsame
      rw [h4, h6] at hsame
      cases hsame
    · rw [hfl] at h1
      injection h1 with h1
      subst h1
      have hsame := loadSTL_congr (lib := lib) (mr_tries_keeps hfl hout h)
      rw [hf, h3] at hsame
      unfold loadSTL at hsame
      rw [h4, h6] at hsame
      injection hsame with hsame
      injection hsame with e1 e2
      subst e1 e2
      rw [hL] at h5
      injection h5 with h5
      subst h5
      exact h8 m fun z hz => hm z ((group_ne_iff hL h7 z).mp hz)

theorem mr_move (hfl : mrFlags args = some fl) {d e d' : Disk} (hs : SameFiles fl d e)
    (ho : ∀ (base : List (Tri (Vec F))) cuts L, loadSTL lib d (split 44 fl.stl) = some (base :: cuts) →
      layout (lib.bbox base) (boxScale (lib.bbox base)) fl.dim fl.nx fl.ny fl.nz = .ok L →
      ∀ m, (∀ z, SliceHit lib L fl base (base :: cuts) z → m ≠ mrName fl.dim fl.nx fl.ny fl.nz z) → e m = d m)
    (h : MrWhole lib png e args d') : MrWhole lib png d args d' := by
  obtain ⟨fl', n, ns, base, cuts, L, h1, h2, h3, h4, h5, h6, h7⟩ := h
  rw [hfl] at h1
  injection h1 with h1
  subst h1
  have hn : (d n).bind lib.load = some base := by
    rw [← hs n (by rw [h3]; simp)]
    exact h4
  have hns : loadSTL lib d ns = some cuts := by
    rw [← h6]
    exact (loadSTL_congr fun m hm => hs m (by rw [h3]; simp [hm])).symm
  refine ⟨fl, n, ns, base, cuts, L, hfl, h2, h3, hn, h5, hns, ?_⟩
  have hall : loadSTL lib d (split 44 fl.stl) = some (base :: cuts) := by
    rw [h3]
    unfold loadSTL
    rw [hn, hns]
  cases h7 with
  | ok hm hi hu =>
    refine .ok hm hi fun m hmm => ?_
    rw [hu m hmm]
    exact ho base cuts L hall h5 m fun z hz => hmm z ((group_ne_iff h5 hm z).mpr hz)

/-- **C132.** If no image is one of the files of `-stl`, stldice-mr can be killed at any moments, any number of times: a run
    that then writes all its images leaves the files that such a run on the original files can leave, all of them, and
    each of those can be left. -/
theorem mr_run_again (hfl : mrFlags args = some fl) (hout : ∀ z, mrName fl.dim fl.nx fl.ny fl.nz z ∉ split 44 fl.stl)
    {d d₁ d' : Disk} (h : MrTries lib args d d₁) : MrWhole lib png d₁ args d' ↔ MrWhole lib png d args d' := by
  have hs := mr_tries_keeps hfl hout h
  constructor
  · exact mr_move hfl hs fun base cuts L hf hL m hm => mr_tries_others hfl hout h hf hL hm
  · refine mr_move hfl (fun n hn => (hs n hn).symm) fun base cuts L hf hL m hm => ?_
    rw [loadSTL_congr hs] at hf
    exact (mr_tries_others hfl hout h hf hL hm).symm

end

/-- stldice-mr, killed with anything in the image of slice 0, and run again: the image is as in a run that was not killed. -/
example (p : Bytes) : ∃ d₁ d' : Disk, MrTries exLib exArgs exNetDisk d₁ ∧ d₁ (mrName 2 1 1 1 0) = some p ∧
    MrWhole exLib (fun _ => [1]) d₁ exArgs d' ∧ d' (mrName 2 1 1 1 0) = some [1] := by
  let fl : MrFlags := ⟨2, 1, 1, 1, ascii "a.stl,b.stl"⟩
  have hfl : mrFlags exArgs = some fl := by
    unfold mrFlags
    have : Flag.parse mrKind (fun _ => false) exArgs = .ok [(ascii "dim", ascii "2"), (ascii "nx", ascii "1"), (ascii "ny", ascii "1"),
      (ascii "stl", ascii "a.stl,b.stl")] [] := by rfl
    rw [this]
    rfl
  have hsplit : split 44 fl.stl = [ascii "a.stl", ascii "b.stl"] := by decide
  have hL : layout (exLib.bbox exPyramid) (boxScale (exLib.bbox exPyramid)) fl.dim fl.nx fl.ny fl.nz = .ok ⟨1, 1, 2, 2, 2, 2, 2, 2, 2⟩ := by
    show layout (⟨⟨0, 0, 0⟩, ⟨2, 2, 2⟩⟩ : Box ℚ) (boxScale (⟨⟨0, 0, 0⟩, ⟨2, 2, 2⟩⟩ : Box ℚ)) 2 1 1 1 = .ok ⟨1, 1, 2, 2, 2, 2, 2, 2, 2⟩
    decide +kernel
  have hhit : SliceHit exLib ⟨1, 1, 2, 2, 2, 2, 2, 2, 2⟩ fl exPyramid [exPyramid, exPyramid] 0 := by
    refine ⟨by decide, by decide, ⟨0, 0, 0⟩, by unfold Spec.InDims; decide, exPyramid, List.mem_cons_self, 0, 0, by decide, by decide, ?_⟩
    refine ⟨by decide, .inl ⟨0, ?_⟩⟩
    refine ⟨by decide, by decide, by decide, ?_⟩
    have : ((intersectTriZPlane 0 ((exLib.mesh exPyramid).heap 0)
        (sliceHeight (tileModel ⟨1, 1, 2, 2, 2, 2, 2, 2, 2⟩ (exLib.bbox exPyramid) ⟨0, 0, 0⟩) 0)).any fun q =>
        decide ((0, 0) ∈ pairPoints (tileModel ⟨1, 1, 2, 2, 2, 2, 2, 2, 2⟩ (exLib.bbox exPyramid) ⟨0, 0, 0⟩)
          (VoxelsPerMM (tileModel ⟨1, 1, 2, 2, 2, 2, 2, 2, 2⟩ (exLib.bbox exPyramid) ⟨0, 0, 0⟩)) q)) = true := by
      decide +kernel
    generalize intersectTriZPlane 0 ((exLib.mesh exPyramid).heap 0) _ = o at this
    cases o with
    | none => cases this
    | some q => exact ⟨q, rfl, of_decide_eq_true this⟩
  obtain ⟨d', -, hd⟩ := mr_possible (lib := exLib) (png := fun _ => [1]) (d := exNetDisk) (args := exArgs) hfl (by decide)
    (names := [ascii "a.stl", ascii "b.stl"]) (base := exPyramid) (cuts := [exPyramid]) ((split_iff _ _ _).mp hsplit)
    (loadSTL_iff.mp rfl) hL
  obtain ⟨img, hi, -⟩ := (mr_files (lib := exLib) (fl := fl) (base := exPyramid) (cuts := [exPyramid]) hL hd 0).1 hhit
  have hw : MrWhole exLib (fun _ => [1]) exNetDisk exArgs d' :=
    ⟨fl, ascii "a.stl", [ascii "b.stl"], exPyramid, [exPyramid], _, hfl, by decide, hsplit, rfl, hL, rfl, hd⟩
  have hk : MrTries exLib exArgs exNetDisk (put exNetDisk (mrName 2 1 1 1 0) p) := by
    refine .killed (.none _) (Or.inr (Or.inr ?_))
    cases hd with
    | ok hm _ _ =>
      refine ⟨fl, ascii "a.stl", [ascii "b.stl"], exPyramid, [exPyramid], _, _, hfl, by decide, hsplit, rfl, hL, rfl, hm, fun n hn => ?_⟩
      exact put_other _ _ (hn 0 ((group_ne_iff hL hm 0).mpr hhit))
  refine ⟨_, d', hk, put_self _ _ _, (mr_run_again hfl ?_ hk).mpr hw, hi⟩
  intro z hz
  rw [hsplit] at hz
  have e : (mrName fl.dim fl.nx fl.ny fl.nz z).head? = some 111 := by
    unfold mrName
    simp only [List.append_assoc]
    rw [List.head?_append]
    rfl
  simp only [List.mem_cons, List.not_mem_nil, or_false] at hz
  rcases hz with hz | hz <;> rw [hz] at e <;> exact absurd e (by decide)

end Mr
end StlDice
