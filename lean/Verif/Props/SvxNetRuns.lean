import Verif.Props.SvxNetBack
import Mathlib.Tactic.DeriveCountable
import Mathlib.Logic.Equiv.List
import Mathlib.Data.Rat.Encodable

/-! # C90, C91: jobs can be answered; the address an agent registers -/

namespace StlDice
namespace Net
open Spec BinVOX Flag Cmd

/-! ## Every acceptable request can be answered -/

section
variable {F : Type} [GoFloat F] {lib : Lib F} {codec : Codec F} {q : Request F} {r : SvxReq F}

/-- The master has finished the first `k` slices of its only job. -/
structure Halfway (lib : Lib F) (codec : Codec F) (q : Request F) (r : SvxReq F) (a : Bytes) (k : Nat) (s : MState F) (J : JobState F) : Prop where
  reach : MReach (fun s l => AllWell s l ∧ Serving lib codec (fun _ => q) s l) s
  job : s.job 0 = some J
  others : ∀ i, i ≠ 0 → s.job i = none
  req : J.req = r
  phase : J.phase = .running
  cur : s.cur = some 0
  final : s.final 0 = none
  idle : s.idle a = true
  done : ∀ z < k, ∃ png, J.task z = .done png
  rest : ∀ z, k ≤ z → J.task z = .waiting

/-- Steps of the master itself are always allowed. -/
theorem quiet {s : MState F} {l : MLabel F} (h1 : ∀ i r, l ≠ .start i r) (h2 : ∀ i z, l ≠ .sliceErr i z)
    (h3 : ∀ i z png, l ≠ .sliceOk i z png) : AllWell s l ∧ Serving lib codec (fun _ => q) s l :=
  ⟨⟨fun i r h => absurd h (h1 i r), h2⟩, fun i r h => absurd h (h1 i r), fun i z png h => absurd h (h3 i z png)⟩

theorem halfway_zero (hr : newJob lib q = .ok r) (a : Bytes) : ∃ s J, Halfway lib codec q r a 0 s J := by
  have h0 : MReach (fun s l => AllWell s l ∧ Serving lib codec (fun _ => q) s l) (MState.init (F := F)) := .init
  have h1 := MReach.step h0 (quiet (by intros; nofun) (by intros; nofun) (by intros; nofun)) (MStep.register _ a)
  have h2 := MReach.step h1 (by
    refine ⟨⟨?_, by intros; nofun⟩, ?_, fun _ _ _ e => by injection e⟩
    · intro i r' _ j J h
      cases h
    · intro i r' h
      injection h with _ h
      exact h ▸ hr) (MStep.start _ 0 r rfl)
  have h3 := MReach.step h2 (quiet (by intros; nofun) (by intros; nofun) (by intros; nofun))
    (MStep.manifest _ 0 0 ⟨r, .opened, fun _ => .waiting⟩ (by dsimp only; rw [upd_same]) rfl rfl)
  have h4 := MReach.step h3 (quiet (by intros; nofun) (by intros; nofun) (by intros; nofun))
    (MStep.blanks _ 0 0 ⟨r, .manifest, fun _ => .waiting⟩ (by dsimp only; rw [upd_same]) rfl rfl)
  refine ⟨_, ⟨r, .running, fun _ => .waiting⟩, h4, by dsimp only; rw [upd_same], ?_, rfl, rfl, rfl, rfl, by dsimp only; rw [upd_same], fun z hz => by omega, fun z _ => rfl⟩
  intro i hi
  dsimp only
  rw [upd_ne _ _ _ _ hi, upd_ne _ _ _ _ hi, upd_ne _ _ _ _ hi]
  rfl

theorem halfway_succ {a : Bytes} {k : Nat} {s : MState F} {J : JobState F} (h : Halfway lib codec q r a k s J) (hk : k < r.L.dimZ.toNat)
    {img : Image} (hi : Agent lib q k (some img)) : ∃ s' J', Halfway lib codec q r a (k + 1) s' J' := by
  have hn : k < J.n := by unfold JobState.n; rw [h.req]; exact hk
  have h1 := MReach.step h.reach (quiet (by intros; nofun) (by intros; nofun) (by intros; nofun))
    (MStep.take s 0 k a J h.job h.phase hn (h.rest k (Nat.le_refl k)) h.idle)
  have h2 := MReach.step h1 (by
    refine ⟨⟨fun _ _ e => by injection e, by intros; nofun⟩, fun _ _ e => by injection e, ?_⟩
    intro i z png e
    injection e with _ e1 e2
    exact ⟨img, e1 ▸ hi, e2.symm⟩)
    (MStep.sliceOk _ 0 k a (codec.png img) (J.setTask k (.busy a)) (by dsimp only; rw [upd_same])
      (by unfold JobState.setTask; dsimp only; rw [upd_same]))
  have h3 := MReach.step h2 (quiet (by intros; nofun) (by intros; nofun) (by intros; nofun))
    (MStep.write _ 0 k 0 (codec.png img) ((J.setTask k (.busy a)).setTask k (.writing (codec.png img))) (by dsimp only; rw [upd_same])
      (by unfold JobState.setTask; dsimp only; rw [upd_same]) h.cur)
  refine ⟨_, ((J.setTask k (.busy a)).setTask k (.writing (codec.png img))).setTask k (.done (codec.png img)), h3,
    by dsimp only; rw [upd_same], ?_, h.req, h.phase, h.cur, h.final, by dsimp only; rw [upd_same], ?_, ?_⟩
  · intro i hi
    dsimp only
    rw [upd_ne _ _ _ _ hi, upd_ne _ _ _ _ hi, upd_ne _ _ _ _ hi]
    exact h.others i hi
  · intro z hz
    by_cases e : z = k
    · subst e
      exact ⟨_, upd_same _ _ _⟩
    · obtain ⟨png, hp⟩ := h.done z (by omega)
      refine ⟨png, ?_⟩
      unfold JobState.setTask
      dsimp only
      rw [upd_ne _ _ _ _ e, upd_ne _ _ _ _ e, upd_ne _ _ _ _ e]
      exact hp
  · intro z hz
    have e : z ≠ k := by omega
    unfold JobState.setTask
    dsimp only
    rw [upd_ne _ _ _ _ e, upd_ne _ _ _ _ e, upd_ne _ _ _ _ e]
    exact h.rest z (by omega)

/-- **C90.** One agent is enough: a request the master accepts and of which an agent can make every slice can be answered with a complete
    file. -/
theorem answer_possible (hr : newJob lib q = .ok r) (hag : ∀ z < r.L.dimZ.toNat, ∃ img, Agent lib q z (some img)) :
    ∃ svx, Answers lib codec AllWell q (some svx) := by
  have half : ∀ k, k ≤ r.L.dimZ.toNat → ∃ s J, Halfway lib codec q r [] k s J := by
    intro k
    induction k with
    | zero => exact fun _ => halfway_zero hr []
    | succ k ih =>
      intro hk
      obtain ⟨s, J, h⟩ := ih (by omega)
      obtain ⟨img, hi⟩ := hag k (by omega)
      exact halfway_succ h (by omega) hi
  obtain ⟨s, J, h⟩ := half _ (Nat.le_refl _)
  have hfin := MReach.step h.reach (quiet (by intros; nofun) (by intros; nofun) (by intros; nofun))
    (MStep.finish s 0 0 J h.job h.phase (fun z hz => .inr (h.done z (by unfold JobState.n at hz; rw [h.req] at hz; exact hz))) h.cur)
  refine ⟨_, Answers.archive (es := s.zip 0) (req := fun _ => r) hfin rfl (upd_same _ _ _) ?_ ?_⟩
  · intro j K hK
    dsimp only at hK
    by_cases e : j = 0
    · subst e
      rw [upd_same] at hK
      injection hK with hK
      subst hK
      exact h.req.symm
    · rw [upd_ne _ _ _ _ e, h.others j e] at hK
      cases hK
  · dsimp only
    rw [h.final, upd_same]
    rfl

end

/-- **C90.** If every file of a request with one layer along z can be divided as asked, the request can be answered. -/
theorem network_possible {F : Type} [GoFloat F] {lib : Lib F} {codec : Codec F} {q : Request F} {base : List (Tri (Vec F))}
    {cuts : List (List (Tri (Vec F)))} (hf : q.StlFiles = base :: cuts) (hb : base ≠ []) (hnz : q.NZ = 1)
    (hok : ∀ f ∈ q.StlFiles, ∃ L, layout (lib.bbox f) (boxScale (lib.bbox f)) q.Dim q.NX q.NY 1 = .ok L) :
    ∃ svx, Answers lib codec AllWell q (some svx) := by
  obtain ⟨L, hL⟩ := hok base (by rw [hf]; exact List.mem_cons_self)
  have hr : newJob lib q = .ok ⟨q.Dim, q.NX, q.NY, q.NZ, q.OutPrefix, L, lib.bbox base⟩ :=
    newJob_ok_iff.mpr ⟨base, cuts, hf, hb, by rw [hnz]; exact hL, rfl⟩
  refine answer_possible hr ?_
  intro z _
  obtain ⟨img, hi⟩ := (agent_flat_ok (lib.bbox base) _ q.Dim q.NX q.NY L hL (lib.mesh base, lib.bbox base)
    (cuts.map fun ts => (lib.mesh ts, lib.bbox ts)) z).1
  refine ⟨img, ?_⟩
  unfold Agent
  rw [hf, hnz]
  refine Or.inl ⟨L, hL, ?_, hi⟩
  intro f hfm
  obtain ⟨c, hc, rfl⟩ := List.mem_map.mp hfm
  exact hok c (by rw [hf]; exact List.mem_cons_of_mem _ hc)

/-! ## The libraries can be as assumed -/

instance : Countable UInt8 := ⟨⟨UInt8.toNat, fun _ _ h => UInt8.toNat_inj.mp h⟩⟩

instance : Countable Bytes := inferInstanceAs (Countable (List UInt8))

deriving instance Countable for Vec, Box, Layout, SvxReq, Content

/-- Pixels inside the bounds. -/
def pixelKey (img : Image) : Int × Int × List Bool :=
  (img.W, img.H, (List.range img.W.toNat).flatMap fun x : Nat => (List.range img.H.toNat).map fun y : Nat => img.white (x : Int) (y : Int))

theorem flatMap_inj {n m : Nat} {f g : Nat → Nat → Bool}
    (h : ((List.range n).flatMap fun x => (List.range m).map fun y => f x y) =
      (List.range n).flatMap fun x => (List.range m).map fun y => g x y) {x y : Nat} (hx : x < n) (hy : y < m) : f x y = g x y := by
  induction n with
  | zero => omega
  | succ n ih =>
    rw [List.range_succ, List.flatMap_append, List.flatMap_append] at h
    have hl : ((List.range n).flatMap fun x => (List.range m).map fun y => f x y).length =
        ((List.range n).flatMap fun x => (List.range m).map fun y => g x y).length := by
      simp only [List.length_flatMap, List.length_map]
    obtain ⟨h1, h2⟩ := List.append_inj h hl
    by_cases e : x = n
    · subst e
      simp only [List.flatMap_cons, List.flatMap_nil, List.append_nil] at h2
      have := List.map_inj_left.mp h2 y (List.mem_range.mpr hy)
      exact this
    · exact ih h1 (by omega)

theorem clip_of_key {a b : Image} (h : pixelKey a = pixelKey b) : clip a = clip b := by
  unfold pixelKey at h
  injection h with h1 h
  injection h with h2 h3
  cases a with
  | mk W H f =>
    cases b with
    | mk W' H' g =>
      dsimp only at h1 h2 h3
      subst h1 h2
      unfold clip
      dsimp only
      congr 1
      funext x y
      by_cases hx : 0 ≤ x ∧ x < W ∧ 0 ≤ y ∧ y < H
      · rw [decide_eq_true hx, Bool.true_and, Bool.true_and]
        have := flatMap_inj (f := fun x y : Nat => f (x : Int) (y : Int)) (g := fun x y : Nat => g (x : Int) (y : Int)) h3 (x := x.toNat) (y := y.toNat) (by omega) (by omega)
        rw [Int.toNat_of_nonneg hx.1, Int.toNat_of_nonneg hx.2.2.1] at this
        exact this
      · rw [decide_eq_false hx, Bool.false_and, Bool.false_and]

/-- The assumption `Faithful` can be met. -/
theorem faithful_exists {F : Type} [GoFloat F] [Countable F] : ∃ (codec : Codec F) (unzip : Bytes → Option (List (ZFile F))) (unpng : Bytes → Option Pic),
    Faithful codec unzip unpng := by
  classical
  have inf : Infinite Bytes := inferInstanceAs (Infinite (List UInt8))
  obtain ⟨e1, he1⟩ : ∃ f : (Int × Int × List Bool) → Bytes, Function.Injective f := by
    obtain ⟨g, hg⟩ := Countable.exists_injective_nat (Int × Int × List Bool)
    exact ⟨fun x => Infinite.natEmbedding Bytes (g x), (Infinite.natEmbedding Bytes).injective.comp hg⟩
  obtain ⟨e2, he2⟩ : ∃ f : List (Bytes × Content F) → Bytes, Function.Injective f := by
    obtain ⟨g, hg⟩ := Countable.exists_injective_nat (List (Bytes × Content F))
    exact ⟨fun x => Infinite.natEmbedding Bytes (g x), (Infinite.natEmbedding Bytes).injective.comp hg⟩
  let unpng : Bytes → Option Pic := fun b => if h : ∃ img, e1 (pixelKey img) = b then some (clip h.choose).pic else none
  refine ⟨⟨fun img => e1 (pixelKey img), e2⟩,
    fun b => if h : ∃ es, e2 es = b then some (h.choose.map (seen unpng)) else none, unpng, ?_, ?_⟩
  · intro img
    have h : ∃ im, e1 (pixelKey im) = e1 (pixelKey img) := ⟨img, rfl⟩
    show (if h : ∃ im, e1 (pixelKey im) = e1 (pixelKey img) then some (clip h.choose).pic else none) = _
    rw [dif_pos h, clip_of_key (he1 h.choose_spec)]
  · intro es _
    have h : ∃ es', e2 es' = e2 es := ⟨es, rfl⟩
    show (if h : ∃ es', e2 es' = e2 es then some (h.choose.map (seen unpng)) else none) = _
    rw [dif_pos h, he2 h.choose_spec]

/-! ## A run -/

/-- A library for which every file is the same pyramid in a box of 2 mm. -/
def exLib : Lib ℚ where
  load := fun _ => some [⟨⟨0, 0, 0⟩, ⟨2, 0, 2⟩, ⟨0, 2, 2⟩⟩]
  normal := fun _ => ⟨0, 0, 1⟩
  bbox := fun _ => ⟨⟨0, 0, 0⟩, ⟨2, 2, 2⟩⟩

def exArgs : List Bytes := [ascii "-dim", ascii "2", ascii "-nx", ascii "1", ascii "-ny", ascii "1", ascii "-stl", ascii "a.stl,b.stl"]

def exFlags : ClientFlags := ⟨2, 1, 1, 1, ascii "a.stl,b.stl", ascii "out", []⟩

theorem ex_flags : clientFlags exArgs = some exFlags := by
  unfold clientFlags
  have : Flag.parse clientKind (fun _ => false) exArgs = .ok [(ascii "dim", ascii "2"), (ascii "nx", ascii "1"), (ascii "ny", ascii "1"),
      (ascii "stl", ascii "a.stl,b.stl")] [] := by rfl
  rw [this]
  rfl

theorem exLib_proper (ts : List (Tri (Vec ℚ))) : Proper (exLib.bbox ts) := by unfold Proper exLib; norm_num

/-- The triangles of both files. -/
def exPyramid : List (Tri (Vec ℚ)) := [⟨⟨0, 0, 0⟩, ⟨2, 0, 2⟩, ⟨0, 2, 2⟩⟩]

/-- The request with a prefix. -/
def exRequest (pre : Bytes) : Request ℚ := ⟨2, 1, 1, 1, pre, [exPyramid, exPyramid]⟩

/-- The network can answer it. -/
theorem exAnswer (codec : Codec ℚ) (pre : Bytes) : ∃ svx, Answers exLib codec AllWell (exRequest pre) (some svx) := by
  have hl : ∀ f : List (Tri (Vec ℚ)), ∃ L, layout (exLib.bbox f) (boxScale (exLib.bbox f)) 2 1 1 1 = .ok L :=
    fun f => ⟨⟨1, 1, 2, 2, 2, 2, 2, 2, 2⟩, by
      show layout (⟨⟨0, 0, 0⟩, ⟨2, 2, 2⟩⟩ : Box ℚ) (boxScale (⟨⟨0, 0, 0⟩, ⟨2, 2, 2⟩⟩ : Box ℚ)) 2 1 1 1 = _
      decide +kernel⟩
  exact network_possible (lib := exLib) (codec := codec) (q := exRequest pre) (base := exPyramid)
    (cuts := [exPyramid]) rfl (List.cons_ne_nil _ _) rfl (fun f _ => hl f)

/-- A disk on which every file is there. -/
def exNetDisk : Disk := fun _ => some []

theorem exLoads : loadSTL exLib exNetDisk (split 44 (ascii "a.stl,b.stl")) = some [exPyramid, exPyramid] := by
  rw [show split 44 (ascii "a.stl,b.stl") = [ascii "a.stl", ascii "b.stl"] by decide]
  rfl

/-- The client, with any prefix, when the network answers. -/
theorem exClient {serve : Bytes → Request ℚ → Option Bytes → Prop} {args : List Bytes} {pre svx : Bytes}
    (hfl : clientFlags args = some ⟨2, 1, 1, 1, ascii "a.stl,b.stl", pre, []⟩) (hs : serve [] (exRequest pre) (some svx)) :
    ClientProc exLib serve exNetDisk args (put exNetDisk (outName pre 2 1 1 1) svx) .done :=
  ClientProc.saved (files := [exPyramid, exPyramid]) (ok := true) hfl (by show ascii "a.stl,b.stl" ≠ []; decide) exLoads hs .ok

/-- With libraries as assumed there is a successful run that `network_svx2stl` is about. -/
theorem exClient_runs : ∃ (codec : Codec ℚ) (unzip : Bytes → Option (List (ZFile ℚ))) (unpng : Bytes → Option Pic) (d' : Disk),
    Faithful codec unzip unpng ∧ clientFlags exArgs = some exFlags ∧
    ClientProc exLib (fun _ q r => Answers exLib codec AllWell q r) exNetDisk exArgs d' .done := by
  obtain ⟨codec, unzip, unpng, hfa⟩ := faithful_exists (F := ℚ)
  obtain ⟨svx, hsvx⟩ := exAnswer codec (ascii "out")
  exact ⟨codec, unzip, unpng, _, hfa, ex_flags, exClient ex_flags hsvx⟩

/-- What svx2stl then reads from the file the client wrote. -/
example : ∃ (codec : Codec ℚ) (unzip : Bytes → Option (List (ZFile ℚ))) (d' : Disk) (L : Layout ℚ) (b : BinVOX ℚ),
    ClientProc exLib (fun _ q r => Answers exLib codec AllWell q r) exNetDisk exArgs d' .done ∧
    svxOpen unzip d' (outName (ascii "out") 2 1 1 1) = .ok b ∧
    ∀ k : Key, Present b k ↔ ∃ (z : Nat) (x y : Int), z < L.dimZ.toNat ∧
      SliceSolid (wholeModel L ⟨⟨0, 0, 0⟩, ⟨2, 2, 2⟩⟩ 1 1 1) (exLib.mesh exPyramid) [exLib.mesh exPyramid] z x y ∧
      k = ⟨x + 1, 2 - y, z + 1⟩ := by
  obtain ⟨codec, unzip, unpng, d', hfa, hfl, h⟩ := exClient_runs
  obtain ⟨names, base, cuts, L, hp, hf, hL, h1, _⟩ := network_svx2stl hfa hfl h rfl rfl (by decide) (by decide) exLib_proper
  have hn : names = split 44 (ascii "a.stl,b.stl") := ((split_iff _ _ _).mpr hp).symm
  subst hn
  have hf := loadSTL_iff.mpr hf
  rw [exLoads] at hf
  cases hf
  have hL' : layout (⟨⟨0, 0, 0⟩, ⟨2, 2, 2⟩⟩ : Box ℚ) (boxScale (⟨⟨0, 0, 0⟩, ⟨2, 2, 2⟩⟩ : Box ℚ)) 2 1 1 1 = .ok ⟨1, 1, 2, 2, 2, 2, 2, 2, 2⟩ := by
    decide +kernel
  have e : L = ⟨1, 1, 2, 2, 2, 2, 2, 2, 2⟩ := by
    have := hL.symm.trans hL'
    injection this
  subst e
  obtain ⟨b, hb, hk⟩ := h1 (by decide)
  exact ⟨codec, unzip, d', _, b, h, hb, hk⟩

/-- The images of that answer, and the entries of the archive. -/
example (codec : Codec ℚ) := (exAnswer codec (ascii "out")).imp fun _ h =>
  network_images (fun _ _ h => h.1) h (base := exPyramid) (cuts := [exPyramid]) rfl rfl (by decide) (by decide) (exLib_proper _)

example (codec : Codec ℚ) := (exAnswer codec (ascii "out")).imp fun _ h => answer_exact (fun _ _ h => h.1) h

theorem answers_mono {F : Type} [GoFloat F] {lib : Lib F} {codec : Codec F} {P Q : MState F → MLabel F → Prop} (hPQ : ∀ s l, P s l → Q s l)
    {q : Request F} {res : Option Bytes} (h : Answers lib codec P q res) : Answers lib codec Q q res := by
  cases h with
  | error => exact .error
  | archive hs hq hj hreq hp => exact .archive (reach_mono (fun s l h => ⟨hPQ s l h.1, h.2⟩) hs) hq hj hreq hp
  | broken hs hq hj hp => exact .broken (reach_mono (fun s l h => ⟨hPQ s l h.1, h.2⟩) hs) hq hj hp

/-- The prefix `part`: the client is answered, but svx2stl cannot read what it wrote. -/
def exPartArgs : List Bytes := exArgs ++ [ascii "-prefix", ascii "part"]

theorem exPart_flags : clientFlags exPartArgs = some ⟨2, 1, 1, 1, ascii "a.stl,b.stl", ascii "part", []⟩ := by
  unfold clientFlags
  have : Flag.parse clientKind (fun _ => false) exPartArgs = .ok [(ascii "dim", ascii "2"), (ascii "nx", ascii "1"), (ascii "ny", ascii "1"),
      (ascii "stl", ascii "a.stl,b.stl"), (ascii "prefix", ascii "part")] [] := by rfl
  rw [this]
  rfl

example : ∃ (codec : Codec ℚ) (unzip : Bytes → Option (List (ZFile ℚ))) (d' : Disk),
    ClientProc exLib (fun _ q r => Answers exLib codec AllWell q r) exNetDisk exPartArgs d' .done ∧
    svxOpen unzip d' (outName (ascii "part") 2 1 1 1) = .err := by
  obtain ⟨codec, unzip, unpng, hfa⟩ := faithful_exists (F := ℚ)
  obtain ⟨svx, hsvx⟩ := exAnswer codec (ascii "part")
  refine ⟨codec, unzip, _, exClient exPart_flags hsvx, ?_⟩
  exact network_prefix_refused hfa exPart_flags
    (exClient exPart_flags (serve := fun _ q r => Answers exLib codec Alone q r) (answers_mono (fun _ _ h => h.1) hsvx))
    (by unfold PlainText; decide) (by decide) (by decide)

/-- The client changes one file, sends what is on the disk and saves what it gets. -/
example : ∃ (codec : Codec ℚ) (d' : Disk), (∀ n, n ≠ outName (ascii "out") 2 1 1 1 → d' n = exNetDisk n) ∧
    ∃ svx, Answers exLib codec AllWell (exRequest (ascii "out")) (some svx) ∧ d' = put exNetDisk (outName (ascii "out") 2 1 1 1) svx := by
  obtain ⟨codec, unzip, unpng, d', hfa, hfl, h⟩ := exClient_runs
  refine ⟨codec, d', fun n hn => client_touches h (fun fl hf => ?_), ?_⟩
  · rw [hfl] at hf
    cases hf
    exact hn
  · rcases client_done h with ⟨hx, _⟩ | ⟨fl, names, files, svx, hf, _, hp, hh, hs, e⟩
    · unfold clientFlags at hfl
      rw [hx] at hfl
      cases hfl
    · rw [hfl] at hf
      cases hf
      have hn : names = split 44 (ascii "a.stl,b.stl") := ((split_iff _ _ _).mpr hp).symm
      subst hn
      have hh := loadSTL_iff.mpr hh
      rw [exLoads] at hh
      cases hh
      exact ⟨svx, hs, e⟩

/-- It can succeed if something answers, and not otherwise. -/
example : (∃ d', ClientProc exLib (fun _ _ r => r = some [80]) exNetDisk exArgs d' .done) ∧
    ∀ d' e, ClientProc exLib (fun _ _ _ => False) exNetDisk exArgs d' e → d' = exNetDisk ∧ e = .fatal :=
  ⟨(client_can_succeed ex_flags).mpr ⟨by decide, _, _, [80], (split_iff _ _ _).mp rfl, loadSTL_iff.mp exLoads, rfl⟩,
    fun _ _ h => client_refused ex_flags (fun _ _ _ _ _ h => h) h⟩

example : outName (ascii "out") 2 1 1 1 ≠ outName (ascii "out-2") 1 1 1 1 := fun h =>
  absurd (outName_injective (by decide) (by decide) h).1 (by decide)

/-! ## The address of an agent -/

/-- An IPv4 address outside the loopback network, by its text. -/
def UsableIp (ip : Bytes) : Prop := ¬ ascii "127." <+: ip ∧ (58 : UInt8) ∉ ip

theorem usable_iff (ip : Bytes) : usable ip = true ↔ UsableIp ip := by
  unfold usable UsableIp
  have h1 : (stripPrefix (ascii "127.") ip).isNone = true ↔ ¬ ascii "127." <+: ip := by
    rw [Option.isNone_iff_eq_none]
    constructor
    · rintro h ⟨t, rfl⟩
      rw [stripPrefix_append] at h
      cases h
    · intro h
      cases hs : stripPrefix (ascii "127.") ip with
      | none => rfl
      | some r => exact absurd ⟨r, (stripPrefix_some hs).symm⟩ h
  rw [Bool.and_eq_true, h1]
  have h2 : (!ip.contains 58) = true ↔ (58 : UInt8) ∉ ip := by
    rw [Bool.not_eq_true', ← Bool.not_eq_true, List.contains_iff_mem]
  rw [h2]

/-- The text of an address that has one. -/
def Addr.ip? : Addr → Option Bytes
  | .ipNet ip => some ip
  | .ipAddr ip => some ip
  | .other => none

/-- The addresses of all interfaces whose addresses can be listed, in order. -/
def allAddrs (ifaces : List (Option (List Addr))) : List Addr := ifaces.flatMap fun i => i.getD []

theorem pick_first {as bs : List Addr} {ip : Bytes} (h : UsableIp ip) (hb : ∀ x, Addr.ipNet x ∈ as → ¬ UsableIp x) :
    ∀ res, pickAddress res (as ++ .ipNet ip :: bs) = ip := by
  induction as with
  | nil =>
    intro res
    show (if usable ip = true then ip else pickAddress ip bs) = ip
    rw [if_pos ((usable_iff ip).mpr h)]
  | cons a as ih =>
    have ih := ih fun x hx => hb x (List.mem_cons_of_mem _ hx)
    intro res
    cases a with
    | ipNet x =>
      have hx := hb x List.mem_cons_self
      show (if usable x = true then x else pickAddress x (as ++ .ipNet ip :: bs)) = ip
      rw [if_neg (fun h => hx ((usable_iff x).mp h))]
      exact ih x
    | ipAddr x => exact ih x
    | other => exact ih res

theorem pick_last {as : List Addr} (hb : ∀ x, Addr.ipNet x ∈ as → ¬ UsableIp x) :
    ∀ res, pickAddress res as = ((as.filterMap Addr.ip?).getLast?).getD res := by
  induction as with
  | nil => intro res; rfl
  | cons a as ih =>
    have ih := ih fun x hx => hb x (List.mem_cons_of_mem _ hx)
    intro res
    have last : ∀ x : Bytes, ((as.filterMap Addr.ip?).getLast?).getD x = ((x :: as.filterMap Addr.ip?).getLast?).getD res := by
      intro x
      rw [List.getLast?_cons]
      rfl
    cases a with
    | ipNet x =>
      have hx := hb x List.mem_cons_self
      show (if usable x = true then x else pickAddress x as) = _
      rw [if_neg (fun h => hx ((usable_iff x).mp h)), ih x]
      exact last x
    | ipAddr x =>
      show pickAddress x as = _
      rw [ih x]
      exact last x
    | other => exact ih res

/-- The port of a listening address: what follows the last colon. -/
def PortOf (listen port : Bytes) : Prop := (58 : UInt8) ∉ port ∧ (listen = port ∨ ∃ host, listen = host ++ 58 :: port)

theorem port_of_split (listen : Bytes) : PortOf listen ((split 58 listen).getLast?.getD []) := by
  obtain ⟨h1, h2, h3⟩ := split_pieces 58 listen
  generalize split 58 listen = ps at h1 h2 h3
  rw [List.getLast?_eq_some_getLast h1, Option.getD_some]
  refine ⟨h2 _ (List.getLast_mem h1), ?_⟩
  rw [h3]
  clear h2 h3
  induction ps with
  | nil => exact absurd rfl h1
  | cons p ps ih =>
    cases ps with
    | nil =>
      left
      rw [intercalate_one]
      rfl
    | cons q ps =>
      right
      rw [intercalate_two, List.getLast_cons (List.cons_ne_nil _ _)]
      rcases ih (List.cons_ne_nil _ _) with e | ⟨host, e⟩
      · exact ⟨p, by rw [← e]⟩
      · exact ⟨p ++ 58 :: host, by rw [e]; simp only [List.append_assoc, List.cons_append]⟩

/-- **C91.** The address an agent registers: the first IPv4 address with a network mask outside 127.0.0.0/8, over all interfaces in order,
    with the port it listens on; only if there is none, the last address of any kind (or nothing). -/
theorem getAddress_exact (listen : Bytes) (ifaces : List (Option (List Addr))) :
    ∃ ip port, getAddress listen ifaces = ip ++ ascii ":" ++ port ∧ PortOf listen port ∧
      ((UsableIp ip ∧ ∃ as bs, allAddrs ifaces = as ++ .ipNet ip :: bs ∧ ∀ x, Addr.ipNet x ∈ as → ¬ UsableIp x) ∨
        ((∀ x, Addr.ipNet x ∈ allAddrs ifaces → ¬ UsableIp x) ∧ ip = (((allAddrs ifaces).filterMap Addr.ip?).getLast?).getD [])) := by
  refine ⟨pickAddress [] (allAddrs ifaces), (split 58 listen).getLast?.getD [], rfl, port_of_split listen, ?_⟩
  generalize allAddrs ifaces = all
  by_cases h : ∃ x, Addr.ipNet x ∈ all ∧ UsableIp x
  · left
    have : ∃ as ip bs, all = as ++ .ipNet ip :: bs ∧ UsableIp ip ∧ ∀ x, Addr.ipNet x ∈ as → ¬ UsableIp x := by
      clear ifaces
      induction all with
      | nil => obtain ⟨x, hx, _⟩ := h; cases hx
      | cons a all ih =>
        by_cases ha : ∃ ip, a = .ipNet ip ∧ UsableIp ip
        · obtain ⟨ip, rfl, hu⟩ := ha
          exact ⟨[], ip, all, rfl, hu, fun x hx => by cases hx⟩
        · have : ∃ x, Addr.ipNet x ∈ all ∧ UsableIp x := by
            obtain ⟨x, hx, hu⟩ := h
            rcases List.mem_cons.mp hx with e | hx
            · exact absurd ⟨x, e.symm, hu⟩ ha
            · exact ⟨x, hx, hu⟩
          obtain ⟨as, ip, bs, e, hu, hb⟩ := ih this
          refine ⟨a :: as, ip, bs, by rw [e]; rfl, hu, ?_⟩
          intro x hx hux
          rcases List.mem_cons.mp hx with e' | hx
          · exact ha ⟨x, e'.symm, hux⟩
          · exact hb x hx hux
    obtain ⟨as, ip, bs, e, hu, hb⟩ := this
    rw [e, pick_first hu hb]
    exact ⟨hu, as, bs, rfl, hb⟩
  · right
    have hno : ∀ x, Addr.ipNet x ∈ all → ¬ UsableIp x := fun x hx hu => h ⟨x, hx, hu⟩
    exact ⟨hno, pick_last hno []⟩

/-- A host with a loopback address, an IPv6 address and 10.0.0.7, listening on any address. -/
example : getAddress (ascii "[::]:4711") [some [.ipNet (ascii "127.0.0.1"), .ipNet (ascii "::1")], none,
    some [.ipNet (ascii "10.0.0.7")]] = ascii "10.0.0.7:4711" := by decide

/-- A host on which only the loopback interface has addresses registers one that other hosts cannot use. -/
example : getAddress (ascii "0.0.0.0:80") [some [.ipNet (ascii "127.0.0.1"), .ipNet (ascii "::1")]] = ascii "::1:80" := by decide

end Net
end StlDice
