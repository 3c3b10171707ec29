import Verif.Props.ToMesh
import Verif.Props.VoxcutTile

/-! # C74: the STL, VOX and binvox outputs of one run of voxcut -/

namespace StlDice
namespace Cmd
open Spec BinVOX
variable {F : Type}

/-- The file `f` holds the well-formed model `b`. -/
def Holds [FloatText F] (d : Disk) (f : Bytes) (b : BinVOX F) : Prop :=
  BinVOX.Read (F := F) (input d f) wholeRegion = some b ∧ 0 < b.NX ∧ 0 < b.NY ∧ 0 < b.NZ

theorem holds_input [FloatText F] {d : Disk} {f : Bytes} {b : BinVOX F} (h : Holds d f b) :
    ∃ inp, input d f = some inp ∧ BinVOX.read inp wholeRegion = some b := by
  obtain ⟨h, -⟩ := h
  cases hi : input d f with
  | none => rw [hi] at h; cases h
  | some inp => rw [hi] at h; exact ⟨inp, rfl, h⟩

/-- A voxel in the closed box that is read from the base, if it is in a cut, is also read from it. -/
theorem closed_other {nx ny nz mx my mz : Int} {r : Region} {k : Key}
    (hb : InDims nx ny nz k) (hd : InDims mx my mz k) (hs : 0 ≤ r.sx ∧ 0 ≤ r.sy ∧ 0 ≤ r.sz)
    (hc : InClosed ⟨r.sx, r.sy, r.sz, clampCount r.cx nx, clampCount r.cy ny, clampCount r.cz nz⟩ k) :
    InClosed ⟨r.sx, r.sy, r.sz, clampCount r.cx mx, clampCount r.cy my, clampCount r.cz mz⟩ k := by
  obtain ⟨a1, a2, a3, a4, a5, a6⟩ := hb
  obtain ⟨b1, b2, b3, b4, b5, b6⟩ := hd
  obtain ⟨c1, c2, c3, c4, c5, c6⟩ := hc
  obtain ⟨s1, s2, s3⟩ := hs
  have key : ∀ c n m s x : Int, 0 ≤ s → x < n → x < m → s ≤ x → x ≤ s + clampCount c n → x ≤ s + clampCount c m := by
    intro c n m s x h0 h1 h2 h3 h4
    unfold clampCount at h4 ⊢
    split <;> split at h4 <;> omega
  exact ⟨c1, key _ _ _ _ _ s1 a2 b2 c1 c2, c3, key _ _ _ _ _ s2 a4 b4 c3 c4, c5, key _ _ _ _ _ s3 a6 b6 c5 c6⟩

/-- **C74.** What voxcut works on: the model whose voxels are exactly those of the base in the *closed*
    box `[s, s+c]` that no cut file has, with the position and resolution of the base. -/
theorem cutModel_exact [GoFloat F] [FloatText F] (hF : WhiteCancels F) {d : Disk} {fl : CutFlags} {base : Bytes} {cuts : List Bytes}
    (hfl : fl.files = base :: cuts) {bw : BinVOX F} (hbw : Holds d base bw) {whole : Bytes → BinVOX F}
    (hcw : ∀ c ∈ cuts, Holds d c (whole c))
    (hn : 0 ≤ fl.region.sx ∧ 0 ≤ fl.region.sy ∧ 0 ≤ fl.region.sz ∧ 0 ≤ fl.region.cx ∧ 0 ≤ fl.region.cy ∧ 0 ≤ fl.region.cz)
    {b : BinVOX F} (hb : cutModel (F := F) d fl = some b) :
    (b.NX = bw.NX ∧ b.NY = bw.NY ∧ b.NZ = bw.NZ ∧ b.TX = bw.TX ∧ b.TY = bw.TY ∧ b.TZ = bw.TZ ∧ b.Scale = bw.Scale ∧
      WhiteOnly b) ∧
    ∀ k, Vox b k ↔ Vox bw k ∧ InClosed ⟨fl.region.sx, fl.region.sy, fl.region.sz, clampCount fl.region.cx bw.NX,
      clampCount fl.region.cy bw.NY, clampCount fl.region.cz bw.NZ⟩ k ∧ ∀ c ∈ cuts, ¬ Vox (whole c) k := by
  obtain ⟨inp, hi, hr⟩ := holds_input hbw
  obtain ⟨-, hx, hy, hz⟩ := hbw
  unfold cutModel at hb
  rw [hfl] at hb
  dsimp only at hb
  split at hb
  · cases hb
  rw [hi] at hb
  have hRead : BinVOX.Read (F := F) (some inp) fl.region = BinVOX.read inp fl.region := rfl
  rw [hRead] at hb
  rcases read_region_cases inp fl.region bw hr hn hx hy hz with ⟨hs, base', hbase, hbwo, hh, hbv⟩ | ⟨_, hnone⟩
  swap
  · rw [hnone] at hb; cases hb
  rw [hbase] at hb
  dsimp only at hb
  generalize hcl : cuts.map (fun f => BinVOX.Read (F := F) (input d f) fl.region) = cl at hb
  have hclw : ∀ c, some c ∈ cl → WhiteOnly c := by
    intro c hc
    rw [← hcl] at hc
    obtain ⟨f, hf, hc⟩ := List.mem_map.mp hc
    obtain ⟨inp', hi', hr'⟩ := holds_input (hcw f hf)
    rw [hi'] at hc
    exact read_whiteOnly inp' _ c hc
  obtain ⟨⟨g1, g2, g3, g4, g5, g6, g7, g8⟩, hvox⟩ := (voxcutLoop_exact hF cl base' hbwo hclw).2 b hb
  obtain ⟨e1, e2, e3, e4, e5, e6, e7⟩ := hh
  refine ⟨⟨g1.trans e1, g2.trans e2, g3.trans e3, g4.trans e4, g5.trans e5, g6.trans e6, g7.trans e7, g8⟩, ?_⟩
  intro k
  rw [hvox, hbv, and_assoc]
  refine and_congr_right fun hv => and_congr_right fun hc => ?_
  have hin := read_vox_inDims inp bw hr hx hy hz k hv
  constructor
  · intro h c hcm hvc
    obtain ⟨inp', hi', hr'⟩ := holds_input (hcw c hcm)
    obtain ⟨-, px, py, pz⟩ := hcw c hcm
    have hin' := read_vox_inDims inp' _ hr' px py pz k hvc
    rcases read_region_cases inp' fl.region _ hr' hn px py pz with ⟨_, c', hc', _, _, hcv⟩ | ⟨hout, _⟩
    · refine h c' ?_ ((hcv k).mpr ⟨hvc, closed_other hin hin' ⟨hn.1, hn.2.1, hn.2.2.1⟩ hc⟩)
      rw [← hcl]
      refine List.mem_map.mpr ⟨c, hcm, ?_⟩
      rw [hi']
      exact hc'
    · obtain ⟨b1, b2, b3, b4, b5, b6⟩ := hin'
      obtain ⟨c1, c2, c3, c4, c5, c6⟩ := hc
      apply hout
      dsimp only at c1 c3 c5
      omega
  · intro h c hcm hvc
    rw [← hcl] at hcm
    obtain ⟨f, hf, hcm⟩ := List.mem_map.mp hcm
    obtain ⟨inp', hi', hr'⟩ := holds_input (hcw f hf)
    obtain ⟨-, px, py, pz⟩ := hcw f hf
    rw [hi'] at hcm
    have hcm : BinVOX.read inp' fl.region = some c := hcm
    rcases read_region_cases inp' fl.region _ hr' hn px py pz with ⟨_, c', hc', _, _, hcv⟩ | ⟨_, hnone⟩
    · rw [hcm] at hc'
      cases hc'
      exact h f hf ((hcv k).mp hvc).1
    · rw [hnone] at hcm
      cases hcm

theorem outBinvox_other [FloatText F] (fl : CutFlags) (b : BinVOX F) (env : FileEnv) (d : Disk) {n : Bytes} (h : fl.obinvox = [] ∨ n ≠ fl.obinvox) :
    (outBinvox fl b env d).1 n = d n := by
  unfold outBinvox
  split
  · rfl
  · rename_i h0
    dsimp only
    generalize (b.Write env fl.region).1 = c
    cases c with
    | none => rfl
    | some c => exact put_other _ _ (h.resolve_left h0)

theorem outVox_other (fl : CutFlags) (m : WhiteVoxelMap) (env : FileEnv) (d : Disk) {n : Bytes} (h : fl.ovox = [] ∨ n ≠ fl.ovox) :
    (outVox fl m env d).1 n = d n := by
  unfold outVox
  split
  · rfl
  · rename_i h0
    split
    · rfl
    · exact put_other _ _ (h.resolve_left h0)

theorem outStl_other [GoFloat F] {lib : GL F} {fl : CutFlags} {b : BinVOX F} {d d' : Disk} {ok : Bool} (hs : OutStl lib fl b d d' ok)
    {n : Bytes} (h : fl.ostl = [] ∨ n ≠ fl.ostl) : d' n = d n := by
  cases hs with
  | none _ => rfl
  | manifold h0 _ _ hs => exact save_other hs (h.resolve_left h0)
  | cubes h0 _ _ hs => exact save_other hs (h.resolve_left h0)

/-- **C74.** voxcut changes no file but its outputs; it changes none when it cannot read the base or
    nothing is left. -/
theorem voxcut_touches [GoFloat F] [FloatText F] {lib : GL F} {d d' : Disk} {fl : CutFlags} {e : Exit}
    (h : VoxcutRun (F := F) lib d fl d' e) :
    (∀ n, n ≠ fl.obinvox → n ≠ fl.ovox → n ≠ fl.ostl → d' n = d n) ∧
    (cutModel (F := F) d fl = none → d' = d ∧ e = .fatal) := by
  cases h with
  | fatal h => exact ⟨fun _ _ _ _ => rfl, fun _ => ⟨rfl, rfl⟩⟩
  | binvoxFails h h1 => exact ⟨fun n h1 _ _ => outBinvox_other _ _ _ _ (Or.inr h1), fun h' => by rw [h] at h'; cases h'⟩
  | voxFails h h1 hm h2 =>
    exact ⟨fun n h1 h2 _ => (outVox_other _ _ _ _ (Or.inr h2)).trans (outBinvox_other _ _ _ _ (Or.inr h1)),
      fun h' => by rw [h] at h'; cases h'⟩
  | last h h1 hm h2 h3 =>
    exact ⟨fun n h1 h2 h4 => (outStl_other h3 (Or.inr h4)).trans ((outVox_other _ _ _ _ (Or.inr h2)).trans
      (outBinvox_other _ _ _ _ (Or.inr h1))), fun h' => by rw [h] at h'; cases h'⟩

/-- The bytes `-ovox` writes for the voxels in this order. -/
def voxBytes (m : WhiteVoxelMap) : Bytes := (writeVOX ⟨[], []⟩ m).1.out

/-- A sink all of whose writes succeed takes everything. -/
theorem writeAll_out : ∀ (cs : List Bytes) (w : Sink), (w.writeAll cs).2 = true → (w.writeAll cs).1.out = w.out ++ cs.flatten := by
  intro cs
  induction cs with
  | nil => intro w _; simp [Sink.writeAll]
  | cons c cs ih =>
    intro w h
    rw [Sink.writeAll] at h ⊢
    obtain ⟨out, plan⟩ := w
    cases plan with
    | nil =>
      simp only [Sink.write] at h ⊢
      rw [ih _ h, List.flatten_cons]
      simp
    | cons o plan =>
      cases o with
      | full =>
        simp only [Sink.write] at h ⊢
        rw [ih _ h, List.flatten_cons]
        simp
      | fail n => simp [Sink.write] at h

/-- **C74.** After a successful run every requested output (under its own name) is there: the STL file
    is that of a mesh of the model, the VOX file lists its voxels, and the binvox file is what `Write`
    makes of the region. -/
theorem voxcut_done [GoFloat F] [FloatText F] {lib : GL F} {d d' : Disk} {fl : CutFlags}
    (h : VoxcutRun (F := F) lib d fl d' .done) :
    ∃ b, cutModel (F := F) d fl = some b ∧
      (fl.ostl ≠ [] → ∃ tris, (if fl.manifold then Manifold.ManifoldRun b tris else ToMeshRun lib b tris) ∧
        d' fl.ostl = some (lib.stl tris)) ∧
      (fl.ovox ≠ [] → fl.ovox ≠ fl.ostl → ∃ m, m.Perm b.white ∧ d' fl.ovox = some (voxBytes m)) ∧
      (fl.obinvox ≠ [] → fl.obinvox ≠ fl.ostl → fl.obinvox ≠ fl.ovox →
        ∃ env c, b.Write env fl.region = (some c, true) ∧ d' fl.obinvox = some c) := by
  generalize he : Exit.done = e at h
  cases h with
  | fatal h => cases he
  | binvoxFails h h1 => cases he
  | voxFails h h1 hm h2 => cases he
  | @last b env m env2 d' ok h h1 hm h2 h3 =>
    cases ok with
    | false => cases he
    | true =>
      refine ⟨b, h, ?_, ?_, ?_⟩
      · intro h0
        cases h3 with
        | none h => exact absurd h h0
        | manifold _ hm ht hs => exact ⟨_, by rw [hm]; exact ht, by rw [save_ok hs, put_self]⟩
        | cubes _ hm ht hs => exact ⟨_, by rw [hm]; exact ht, by rw [save_ok hs, put_self]⟩
      · intro h0 hne
        refine ⟨m, hm, ?_⟩
        rw [outStl_other h3 (Or.inr hne)]
        unfold outVox at h2 ⊢
        rw [if_neg h0] at h2 ⊢
        split at h2
        · cases h2
        · rename_i hc
          rw [if_neg hc]
          dsimp only
          rw [put_self]
          dsimp only at h2
          rw [Bool.and_eq_true] at h2
          have e1 := writeAll_out (voxCalls m) ⟨[], env2.plan⟩ h2.1
          have e2 := writeAll_out (voxCalls m) ⟨[], []⟩ (by
            have := (writeVOX_reports_iff ⟨[], []⟩ m).mpr (by intro i _ k; simp)
            exact this)
          unfold voxBytes writeVOX
          rw [e1, e2]
      · intro h0 hn1 hn2
        unfold outBinvox at h1
        rw [if_neg h0] at h1
        dsimp only at h1
        rw [outStl_other h3 (Or.inr hn1), outVox_other _ _ _ _ (Or.inr hn2)]
        refine ⟨env, ?_⟩
        unfold outBinvox
        rw [if_neg h0]
        dsimp only
        generalize hW : b.Write env fl.region = W at h1
        obtain ⟨c, ok⟩ := W
        dsimp only at h1
        subst h1
        cases c with
        | none =>
          exfalso
          unfold BinVOX.Write at hW
          split at hW
          · cases hW
          · dsimp only at hW
            split at hW <;> cases hW
        | some c => exact ⟨c, rfl, put_self _ _ _⟩

/-- A white model as the mesh builders see it. -/
theorem present_vox [GoFloat F] {b : BinVOX F} (h : WhiteOnly b) (k : Key) : Present b k ↔ Vox b k := by
  unfold Present Vox
  rw [get_whiteOnly b h]
  split <;> simp_all

/-- **C74.** The STL file of `voxcut -manifold` on a tile: the float32 rounding of a mesh of the base voxels
    in the *closed* box `[s, s+c]` that no cut has, at their place in the world. -/
theorem voxcut_manifold_tile [FloatText ℚ] {lib : GL ℚ} {d d' : Disk} {fl : CutFlags} (h : VoxcutRun (F := ℚ) lib d fl d' .done)
    (ho : fl.ostl ≠ []) (hman : fl.manifold = true) {base : Bytes} {cuts : List Bytes}
    (hfl : fl.files = base :: cuts) {bw : BinVOX ℚ} (hbw : Holds d base bw) {whole : Bytes → BinVOX ℚ}
    (hcw : ∀ c ∈ cuts, Holds d c (whole c))
    (hn : 0 ≤ fl.region.sx ∧ 0 ≤ fl.region.sy ∧ 0 ≤ fl.region.sz ∧ 0 ≤ fl.region.cx ∧ 0 ≤ fl.region.cy ∧ 0 ≤ fl.region.cz)
    {f32 : Nat → ℚ} {parseF : Bytes → ℚ} :
    ∃ b file, d' fl.ostl = some file ∧ b.TX = bw.TX ∧ b.TY = bw.TY ∧ b.TZ = bw.TZ ∧ b.VoxelsPerMM = bw.VoxelsPerMM ∧
      (∀ k, Present b k ↔ Vox bw k ∧ InClosed ⟨fl.region.sx, fl.region.sy, fl.region.sz, clampCount fl.region.cx bw.NX,
        clampCount fl.region.cy bw.NY, clampCount fl.region.cz bw.NZ⟩ k ∧ ∀ c ∈ cuts, ¬ Vox (whole c) k) ∧
      (file.length < 84 + 50 * 4294967296 → ∃ tris,
        StlText.stlToMesh f32 parseF file = .ok (tris.map (moveTri (asFloat32 lib.bits f32))) ∧
        (WellComposed b → (∀ k, blockBits b k ∉ twistedChains) →
          ClosedAfterHalving tris ∧ (0 < b.VoxelsPerMM → ∀ t ∈ tris, OnSkin b t) ∧
          ∀ vox : List Key, vox.Nodup → (∀ k, k ∈ vox ↔ Present b k) →
            volume tris = vox.length * (1 / b.VoxelsPerMM) ^ 3)) := by
  obtain ⟨b, hb, hs, -, -⟩ := voxcut_done h
  obtain ⟨tris, ht, hf⟩ := hs ho
  rw [hman] at ht
  have ht : Manifold.ManifoldRun b tris := ht
  obtain ⟨⟨e1, e2, e3, e4, e5, e6, e7, e8⟩, hv⟩ := cutModel_exact whiteCancels_rat hfl hbw hcw hn hb
  refine ⟨b, _, hf, e4, e5, e6, ?_, fun k => (present_vox e8 k).trans (hv k), fun hl => ⟨tris, stl_parses lib tris hl, fun hw htw =>
    ⟨Manifold.manifold_closed_wellcomposed ht hw htw, fun hp => Manifold.manifold_skin hp ht hw htw,
      fun vox hnd hvox => Manifold.manifold_volume ht hw htw hnd hvox⟩⟩⟩
  unfold VoxelsPerMM
  rw [e1, e2, e3, e7]

/-- **C74 (tiles overlap).** Of two neighbouring tiles, `[s, s+c)` and `[s+c, s+2c)` in x, both work on
    the layer `x = s+c`: a voxel of it that survives the cuts is in the STL and VOX outputs of both. -/
theorem voxcut_tiles_overlap [GoFloat F] [FloatText F] (hF : WhiteCancels F) {d : Disk} {fl fl2 : CutFlags} {base : Bytes}
    {cuts : List Bytes} (hfl : fl.files = base :: cuts) (hfl2 : fl2.files = base :: cuts) {bw : BinVOX F} (hbw : Holds d base bw)
    {whole : Bytes → BinVOX F} (hcw : ∀ c ∈ cuts, Holds d c (whole c)) {s c : Int} (hs : 0 ≤ s) (hc : 0 < c)
    (h1 : fl.region = ⟨s, 0, 0, c, 0, 0⟩) (h2 : fl2.region = ⟨s + c, 0, 0, c, 0, 0⟩) {b b2 : BinVOX F}
    (hb : cutModel (F := F) d fl = some b) (hb2 : cutModel (F := F) d fl2 = some b2) {k : Key} (hk : Vox bw k) (hx : k.X = s + c)
    (hcut : ∀ c ∈ cuts, ¬ Vox (whole c) k) : Vox b k ∧ Vox b2 k := by
  obtain ⟨inp, -, hr⟩ := holds_input hbw
  obtain ⟨a1, a2, a3, a4, a5, a6⟩ := read_vox_inDims inp bw hr hbw.2.1 hbw.2.2.1 hbw.2.2.2 k hk
  have e1 := (cutModel_exact hF hfl hbw hcw (by rw [h1]; dsimp only; omega) hb).2 k
  have e2 := (cutModel_exact hF hfl2 hbw hcw (by rw [h2]; dsimp only; omega) hb2).2 k
  rw [h1] at e1
  rw [h2] at e2
  refine ⟨e1.mpr ⟨hk, ?_, hcut⟩, e2.mpr ⟨hk, ?_, hcut⟩⟩
  · unfold InClosed clampCount
    dsimp only
    refine ⟨by omega, ?_, by omega, by rw [if_pos (Or.inl rfl)]; omega, by omega, by rw [if_pos (Or.inl rfl)]; omega⟩
    split <;> omega
  · unfold InClosed clampCount
    dsimp only
    refine ⟨by omega, ?_, by omega, by rw [if_pos (Or.inl rfl)]; omega, by omega, by rw [if_pos (Or.inl rfl)]; omega⟩
    split <;> omega

/-- The hypotheses are met: on a disk holding the file of the example model, a run of voxcut with all three
    outputs that succeeds. -/
theorem exVoxcut_runs (lib : GL ℚ) : ∃ (d d' : Disk) (bw : BinVOX ℚ), Holds d (ascii "base") bw ∧ (1 < bw.NX ∧ 2 < bw.NY ∧ 0 < bw.NZ) ∧ Vox bw ⟨1, 2, 0⟩ ∧
    VoxcutRun (F := ℚ) lib d ⟨ascii "b", ascii "s", ascii "v", wholeRegion, true, [ascii "base"]⟩ d' .done := by
  obtain ⟨b', h, h1, h2, h3, _, _, _, _, _, _, hv⟩ := write_region_read exModel (by decide) wholeRegion
    (by decide) (by decide) (by decide)
  let d : Disk := put (fun _ => none) (ascii "base") (exModel.write ⟨[], []⟩ wholeRegion).1.out
  have hin : BinVOX.Read (F := ℚ) (input d (ascii "base")) wholeRegion = some b' := by
    have e : d (ascii "base") = some (exModel.write ⟨[], []⟩ wholeRegion).1.out := put_self _ _ _
    unfold input
    rw [e]
    exact h
  obtain ⟨tris, ht⟩ := Manifold.manifold_run_exists b'
  have hv' : Vox b' ⟨1, 2, 0⟩ := by
    rw [hv]
    refine ⟨?_, by unfold Vox; decide⟩
    unfold InDims; decide
  have hcm : cutModel (F := ℚ) d ⟨ascii "b", ascii "s", ascii "v", wholeRegion, true, [ascii "base"]⟩ = some b' := by
    unfold cutModel
    dsimp only
    rw [if_neg (by decide), hin]
    rfl
  refine ⟨d, _, b', ⟨hin, by rw [h1]; decide, by rw [h2]; decide, by rw [h3]; decide⟩, ⟨by rw [h1]; decide, by rw [h2]; decide, by rw [h3]; decide⟩, hv',
    VoxcutRun.last (env := ⟨true, [], true⟩) (env2 := ⟨true, [], true⟩) hcm ?_ (List.Perm.refl _) ?_
      (.manifold (tris := tris) (by decide) rfl ht .ok)⟩
  · unfold outBinvox
    rw [if_neg (by decide)]
    exact (write_reports_iff _ _ _).mpr ⟨rfl, rfl, Or.inr (by simp)⟩
  · unfold outVox
    rw [if_neg (by decide), if_neg (by decide)]
    dsimp only
    rw [(writeVOX_reports_iff ⟨[], []⟩ _).mpr (by intro i _ k; simp)]
    rfl

/-- `cutModel_exact`, `voxcut_touches`, `voxcut_done`, `voxcut_manifold_tile` on this run. -/
example (lib : GL ℚ) (f32 : Nat → ℚ) (parseF : Bytes → ℚ) : ∃ (d d' : Disk) (bw : BinVOX ℚ) (b : BinVOX ℚ) (file : Bytes), Vox bw ⟨1, 2, 0⟩ ∧
    cutModel (F := ℚ) d ⟨ascii "b", ascii "s", ascii "v", wholeRegion, true, [ascii "base"]⟩ = some b ∧ Vox b ⟨1, 2, 0⟩ ∧
    d' (ascii "s") = some file ∧ d' (ascii "x") = d (ascii "x") ∧
    (file.length < 84 + 50 * 4294967296 → ∃ tris, StlText.stlToMesh f32 parseF file = .ok tris) := by
  obtain ⟨d, d', bw, hh, hdim, hv, h⟩ := exVoxcut_runs lib
  obtain ⟨b, hb, -⟩ := voxcut_done h
  obtain ⟨-, hx⟩ := cutModel_exact whiteCancels_rat (fl := ⟨ascii "b", ascii "s", ascii "v", wholeRegion, true, [ascii "base"]⟩)
    (cuts := []) (whole := fun _ => bw) rfl hh (by nofun) (by decide) hb
  obtain ⟨b2, file, hf, -, -, -, -, -, hl⟩ := voxcut_manifold_tile h (by decide) rfl (cuts := []) (whole := fun _ => bw) rfl hh (by nofun) (by decide)
    (f32 := f32) (parseF := parseF)
  refine ⟨d, d', bw, b, file, hv, hb, (hx _).mpr ⟨hv, ?_, by nofun⟩, hf, (voxcut_touches h).1 _ (by decide) (by decide) (by decide),
    fun hlen => ?_⟩
  · unfold InClosed clampCount wholeRegion
    dsimp only
    rw [if_pos (.inl rfl), if_pos (.inl rfl), if_pos (.inl rfl)]
    omega
  · obtain ⟨tris, h1, -⟩ := hl hlen
    exact ⟨_, h1⟩

end Cmd
end StlDice
