import Verif.Model.Commands
import Verif.Props.StlText
import Verif.Props.BinVoxFile
import Verif.Props.Marching
import Verif.Props.ManifoldSolid

/-! # C72: manifold-mesh and marching-cubes from file to file -/

namespace StlDice
open Spec

/-! ## Moving the corners of a closed surface keeps it closed -/

theorem triEdges_move {P Q : Type} (f : P → Q) (ts : List (Tri P)) :
    (ts.map (moveTri f)).flatMap triEdges = (ts.flatMap triEdges).map (Prod.map f f) := by
  induction ts with
  | nil => rfl
  | cons t ts ih =>
    rw [List.map_cons, List.flatMap_cons, List.flatMap_cons, List.map_append, ih]
    rfl

theorem closed_iff_perm {P : Type} [DecidableEq P] (ts : List (Tri P)) :
    Closed ts ↔ (ts.flatMap triEdges).Perm ((ts.flatMap triEdges).map Prod.swap) := by
  generalize hE : ts.flatMap triEdges = E
  have hsw : ∀ (E : List (P × P)) (u v : P), (E.map Prod.swap).count (u, v) = E.count (v, u) := by
    intro E u v
    exact List.count_map_of_injective E Prod.swap Prod.swap_injective (v, u)
  unfold Closed
  rw [hE]
  constructor
  · intro h
    rw [List.perm_iff_count]
    rintro ⟨u, v⟩
    rw [hsw, h]
  · intro h u v
    rw [h.count_eq, hsw]

/-- However the corners of a closed surface are moved (rounded, say), it stays closed. -/
theorem closed_move {P Q : Type} [DecidableEq P] [DecidableEq Q] (f : P → Q) {ts : List (Tri P)} (h : Closed ts) :
    Closed (ts.map (moveTri f)) := by
  rw [closed_iff_perm] at h ⊢
  rw [triEdges_move]
  have := h.map (Prod.map f f)
  rw [List.map_map] at this
  rw [List.map_map]
  exact this

namespace Cmd
open BinVOX

section
variable {F : Type} {f32 : Nat → F} {parseF : Bytes → F}

theorem stl_length (lib : GL F) (ts : List (Tri (Vec F))) : (lib.stl ts).length = 84 + 50 * ts.length := by
  unfold GL.stl stlBinary
  rw [List.length_append, List.length_append, List.length_replicate, List.length_flatMap]
  simp only [StlText.stlTri_length, Spec.le32, List.length_cons, List.length_nil]
  simp
  omega

/-- What `SaveSTL` has written reads back as the same triangles, rounded to float32 — if there are
    fewer than 2^32 of them, that is, the file is shorter than 84 + 50·2^32 bytes. -/
theorem stl_parses (lib : GL F) (ts : List (Tri (Vec F))) (h : (lib.stl ts).length < 84 + 50 * 4294967296) :
    StlText.stlToMesh f32 parseF (lib.stl ts) = .ok (ts.map (moveTri (asFloat32 lib.bits f32))) := by
  rw [stl_length] at h
  exact StlText.stlToMesh_binary_rounded _ _ (by simp) (by omega)

theorem put_self (d : Disk) (n b : Bytes) : put d n b n = some b := if_pos rfl

theorem put_other (d : Disk) {n m : Bytes} (b : Bytes) (h : m ≠ n) : put d n b m = d m := if_neg h

theorem save_other {d d' : Disk} {name c : Bytes} {ok : Bool} (h : Save d name c d' ok) {n : Bytes} (hn : n ≠ name) :
    d' n = d n := by
  cases h with
  | ok => exact put_other d _ hn
  | notCreated => rfl
  | part _ => exact put_other d _ hn

theorem save_ok {d d' : Disk} {name c : Bytes} (h : Save d name c d' true) : d' = put d name c := by
  cases h
  rfl

variable [FloatText F] {mesh : BinVOX F → List (Tri (Vec F)) → Prop} {lib : GL F} {d d' : Disk} {args : List Bytes} {e : Exit}

/-- **C72.** The command never touches a file other than its second argument, and none at all unless
    it is given two arguments of which the first can be read. -/
theorem convert_touches (h : ConvertRun mesh lib d args d' e) :
    (∀ n, (∀ i o, args = [i, o] → n ≠ o) → d' n = d n) ∧
    ((∀ i o, args = [i, o] → BinVOX.Read (F := F) (input d i) wholeRegion = none) → d' = d ∧ e = .fatal) := by
  cases h with
  | usage h => exact ⟨fun _ _ => rfl, fun _ => ⟨rfl, rfl⟩⟩
  | unreadable h => exact ⟨fun _ _ => rfl, fun _ => ⟨rfl, rfl⟩⟩
  | saved h ht hs =>
    refine ⟨fun n hn => save_other hs (hn _ _ rfl), fun h' => ?_⟩
    have := h' _ _ rfl
    rw [show wholeRegion = (⟨0, 0, 0, 0, 0, 0⟩ : Region) from rfl] at this
    rw [this] at h
    cases h

/-- **C72.** When the command reports success, the file named by its second argument is the STL file
    of a mesh of the model in the file named by the first. -/
theorem convert_done (h : ConvertRun mesh lib d args d' .done) :
    ∃ i o b tris, args = [i, o] ∧ BinVOX.Read (F := F) (input d i) wholeRegion = some b ∧ mesh b tris ∧
      d' o = some (lib.stl tris) := by
  generalize he : Exit.done = e at h
  cases h with
  | usage h => cases he
  | unreadable h => cases he
  | @saved i o b tris d' ok h ht hs =>
    cases ok with
    | false => cases he
    | true =>
      refine ⟨i, o, b, tris, rfl, h, ht, ?_⟩
      rw [save_ok hs, put_self]

/-- **C72.** With two arguments, a readable first one and a working file system the command succeeds. -/
theorem convert_succeeds {i o : Bytes} {b : BinVOX F} {tris : List (Tri (Vec F))}
    (h : BinVOX.Read (F := F) (input d i) wholeRegion = some b) (ht : mesh b tris) :
    ConvertRun mesh lib d [i, o] (put d o (lib.stl tris)) .done :=
  .saved h ht (.ok (d := d) (name := o) (content := lib.stl tris))

/-- A failing save is reported. -/
theorem convert_failure {i o : Bytes} (h : ConvertRun mesh lib d [i, o] d' e)
    (hw : ∀ tris, d' o ≠ some (lib.stl tris)) : e = .fatal := by
  cases h with
  | usage h => rfl
  | unreadable h => rfl
  | @saved _ _ b tris _ ok h ht hs =>
    cases ok with
    | false => rfl
    | true =>
      rw [save_ok hs, put_self] at hw
      exact (hw _ rfl).elim

end

section
variable [FloatText ℚ] {lib : GL ℚ} {d d' : Disk} {args : List Bytes} {f32 : Nat → ℚ} {parseF : Bytes → ℚ}

/-- The STL file of a marching-cubes mesh reads as a closed, consistently oriented surface whose corners are exactly
    the rounded points halfway between voxels and adjacent places without one. -/
theorem marching_stl {lib : GL ℚ} {f32 : Nat → ℚ} {parseF : Bytes → ℚ} {b : BinVOX ℚ} {tris : List (Tri (Vec ℚ))}
    (ht : Marching.MarchingRun b tris) (hl : (lib.stl tris).length < 84 + 50 * 4294967296) :
    ∃ ts, StlText.stlToMesh f32 parseF (lib.stl tris) = .ok ts ∧ Closed ts ∧
        (∀ p, (∃ t ∈ ts, p = t.V1 ∨ p = t.V2 ∨ p = t.V3) ↔
          ∃ k k' : Key, Adjacent k k' ∧ Present b k ∧ ¬ Present b k' ∧
            p = asFloat32 lib.bits f32 (midpoint (centre b k) (centre b k'))) ∧
        (ts = [] ↔ ∀ k, ¬ Present b k) := by
  refine ⟨_, stl_parses lib tris hl, closed_move _ (Marching.marching_closed ht), ?_, ?_⟩
  · intro p
    have hv := Marching.marching_vertices ht
    constructor
    · rintro ⟨t, htm, hp⟩
      obtain ⟨s, hs, rfl⟩ := List.mem_map.mp htm
      have key : ∀ q, (q = s.V1 ∨ q = s.V2 ∨ q = s.V3) → p = asFloat32 lib.bits f32 q → ∃ k k' : Key, Adjacent k k' ∧ Present b k ∧
          ¬ Present b k' ∧ p = asFloat32 lib.bits f32 (midpoint (centre b k) (centre b k')) := by
        intro q hq hpq
        obtain ⟨k, k', h1, h2, h3, h4⟩ := (hv q).mp ⟨s, hs, hq⟩
        exact ⟨k, k', h1, h2, h3, h4 ▸ hpq⟩
      rcases hp with hp | hp | hp
      · exact key _ (Or.inl rfl) hp
      · exact key _ (Or.inr (Or.inl rfl)) hp
      · exact key _ (Or.inr (Or.inr rfl)) hp
    · rintro ⟨k, k', h1, h2, h3, h4⟩
      obtain ⟨s, hs, hq⟩ := (hv _).mpr ⟨k, k', h1, h2, h3, rfl⟩
      refine ⟨moveTri (asFloat32 lib.bits f32) s, List.mem_map_of_mem hs, ?_⟩
      rw [h4]
      unfold moveTri
      dsimp only
      rcases hq with hq | hq | hq
      · exact Or.inl (by rw [hq])
      · exact Or.inr (Or.inl (by rw [hq]))
      · exact Or.inr (Or.inr (by rw [hq]))
  · rw [List.map_eq_nil_iff]
    exact Marching.marching_empty_iff ht

/-- **C72.** A successful run of marching-cubes leaves an STL file that reads as a closed, consistently
    oriented surface — whatever the rounding to float32 does — whose corners are exactly the rounded
    points halfway between voxels in the input file and adjacent ones not in it. -/
theorem marching_cubes_file (h : MarchingCmd lib d args d' .done) :
    ∃ i o b file, args = [i, o] ∧ BinVOX.Read (F := ℚ) (input d i) wholeRegion = some b ∧ d' o = some file ∧
      (file.length < 84 + 50 * 4294967296 → ∃ ts, StlText.stlToMesh f32 parseF file = .ok ts ∧ Closed ts ∧
        (∀ p, (∃ t ∈ ts, p = t.V1 ∨ p = t.V2 ∨ p = t.V3) ↔
          ∃ k k' : Key, Adjacent k k' ∧ Present b k ∧ ¬ Present b k' ∧
            p = asFloat32 lib.bits f32 (midpoint (centre b k) (centre b k'))) ∧
        (ts = [] ↔ ∀ k, ¬ Present b k)) := by
  obtain ⟨i, o, b, tris, ha, hb, ht, hf⟩ := convert_done h
  exact ⟨i, o, b, _, ha, hb, hf, fun hl => marching_stl ht hl⟩

/-- **C72.** A successful run of manifold-mesh on a file whose model is well composed and has no twisted
    chain leaves an STL file holding the float32 rounding of a closed mesh of the skin of the voxels,
    which encloses exactly their volume. -/
theorem manifold_mesh_file (h : ManifoldCmd lib d args d' .done) :
    ∃ i o b file, args = [i, o] ∧ BinVOX.Read (F := ℚ) (input d i) wholeRegion = some b ∧ d' o = some file ∧
      (file.length < 84 + 50 * 4294967296 → ∃ tris, StlText.stlToMesh f32 parseF file =
          .ok (tris.map (moveTri (asFloat32 lib.bits f32))) ∧
        (WellComposed b → (∀ k, blockBits b k ∉ twistedChains) →
          ClosedAfterHalving tris ∧ (0 < b.VoxelsPerMM → ∀ t ∈ tris, OnSkin b t) ∧
          ∀ vox : List Key, vox.Nodup → (∀ k, k ∈ vox ↔ Present b k) →
            volume tris = vox.length * (1 / b.VoxelsPerMM) ^ 3)) := by
  obtain ⟨i, o, b, tris, ha, hb, ht, hf⟩ := convert_done h
  exact ⟨i, o, b, _, ha, hb, hf, fun hl => ⟨tris, stl_parses lib tris hl, fun hw htw =>
    ⟨Manifold.manifold_closed_wellcomposed ht hw htw, fun hp => Manifold.manifold_skin hp ht hw htw,
      fun vox hnd hv => Manifold.manifold_volume ht hw htw hnd hv⟩⟩⟩

end

/-- **C72.** From `Write` to the command: the model the commands see is the one saved, restricted to
    its dimensions. -/
theorem input_of_write {F : Type} [GoFloat F] [FloatText F] [LawfulFloatText F] (b : BinVOX F) (hne : b.white ≠ [])
    (hx : 0 ≤ b.NX ∧ b.NX ≤ maxInt) (hy : 0 ≤ b.NY ∧ b.NY ≤ maxInt) (hz : 0 ≤ b.NZ ∧ b.NZ ≤ maxInt)
    (env : FileEnv) (hc : env.createOk = true) (hp : ∀ o ∈ env.plan, o = WOut.full) (hcl : env.closeOk = true)
    (d : Disk) (name : Bytes) :
    ∃ file b', b.Write env wholeRegion = (some file, true) ∧
      BinVOX.Read (F := F) (input (put d name file) name) wholeRegion = some b' ∧
      b'.TX = b.TX ∧ b'.TY = b.TY ∧ b'.TZ = b.TZ ∧ b'.VoxelsPerMM = b.VoxelsPerMM ∧
      ∀ k, Present b' k ↔ Vox b k ∧ InDims b.NX b.NY b.NZ k := by
  obtain ⟨file, b', h1, h2, h3, h4, h5, h6, h7, h8, h9, h10⟩ := write_read_roundtrip b hne hx hy hz env hc hp hcl
  refine ⟨file, b', h1, ?_, h6, h7, h8, ?_, ?_⟩
  · unfold input
    rw [put_self]
    exact h2
  · unfold VoxelsPerMM
    rw [h3, h4, h5, h9]
  · intro k
    have hw : b'.color = [] := by
      obtain ⟨_, _, _, _, _, _, _, _, _, _, rfl⟩ := (read_iff _ _ _).mp h2
      rfl
    rw [← h10]
    unfold Present BinVOX.Get Vox GoMap.has
    rw [hw]
    cases hg : b'.white.get ⟨k.X, k.Y, k.Z⟩ with
    | none => simp [hg, GoMap.get]
    | some _ => simp [hg]

/-- The hypotheses are met: a disk holding the file of the example model (three voxels), and runs of the
    two commands on it that succeed. -/
example (lib : GL ℚ) : ∃ (d d1 d2 : Disk), MarchingCmd lib d [ascii "in.binvox", ascii "out.stl"] d1 .done ∧
    ManifoldCmd lib d [ascii "in.binvox", ascii "out.stl"] d2 .done ∧
    ∃ b, BinVOX.Read (F := ℚ) (input d (ascii "in.binvox")) wholeRegion = some b ∧ Present b ⟨1, 2, 0⟩ := by
  obtain ⟨file, b, -, hr, -, -, -, -, hp⟩ := input_of_write exModel (by decide) (by decide) (by decide) (by decide)
    ⟨true, [], true⟩ rfl (by simp) rfl (fun _ => none) (ascii "in.binvox")
  obtain ⟨t1, h1⟩ := Marching.marching_run_exists b
  obtain ⟨t2, h2⟩ := Manifold.manifold_run_exists b
  refine ⟨_, _, _, convert_succeeds hr h1, convert_succeeds hr h2, b, hr, (hp _).mpr ⟨?_, ?_⟩⟩
  · unfold Vox; decide
  · unfold InDims; decide

/-- Renaming the corners of a closed surface. -/
example := closed_move (fun n : Nat => n % 3) (ts := [(⟨0, 1, 2⟩ : Tri Nat), ⟨0, 2, 3⟩, ⟨0, 3, 1⟩, ⟨1, 3, 2⟩]) ((closed_iff_perm _).mpr (by decide))

/-- `convert_done`, `convert_touches`, `marching_cubes_file` and `manifold_mesh_file` on the runs above; `convert_failure` when
    the output cannot be created. -/
example (lib : GL ℚ) (f32 : Nat → ℚ) (parseF : Bytes → ℚ) : ∃ (d d1 d2 : Disk), MarchingCmd lib d [ascii "in.binvox", ascii "out.stl"] d1 .done ∧
    ManifoldCmd lib d [ascii "in.binvox", ascii "out.stl"] d2 .done ∧ d1 (ascii "in.binvox") = d (ascii "in.binvox") ∧
    (∃ b tris, Marching.MarchingRun (F := ℚ) b tris ∧ d1 (ascii "out.stl") = some (lib.stl tris)) ∧
    (∃ file, d1 (ascii "out.stl") = some file ∧
      (file.length < 84 + 50 * 4294967296 → ∃ ts, StlText.stlToMesh f32 parseF file = .ok ts ∧ Closed ts)) ∧
    (∃ file, d2 (ascii "out.stl") = some file ∧
      (file.length < 84 + 50 * 4294967296 → ∃ ts, StlText.stlToMesh f32 parseF file = .ok ts)) ∧
    ∃ e, MarchingCmd lib d [ascii "in.binvox", ascii "out.stl"] d e ∧ e = .fatal := by
  obtain ⟨file, b, -, hr, -, -, -, -, hp⟩ := input_of_write exModel (by decide) (by decide) (by decide) (by decide)
    ⟨true, [], true⟩ rfl (by simp) rfl (fun _ => none) (ascii "in.binvox")
  obtain ⟨t1, h1⟩ := Marching.marching_run_exists b
  obtain ⟨t2, h2⟩ := Manifold.manifold_run_exists b
  have r1 : MarchingCmd lib _ [ascii "in.binvox", ascii "out.stl"] _ .done := convert_succeeds hr h1
  have r2 : ManifoldCmd lib _ [ascii "in.binvox", ascii "out.stl"] _ .done := convert_succeeds hr h2
  have r3 : MarchingCmd lib _ [ascii "in.binvox", ascii "out.stl"] _ .fatal := .saved (ok := false) hr h1 .notCreated
  refine ⟨_, _, _, r1, r2, ?_, ?_, ?_, ?_, _, r3, convert_failure r3 (fun tris => ?_)⟩
  · refine (convert_touches r1).1 _ ?_
    rintro i o h
    cases h
    decide
  · obtain ⟨i, o, b', tris, ha, -, hm, ho⟩ := convert_done r1
    cases ha
    exact ⟨b', tris, hm, ho⟩
  · obtain ⟨i, o, b', file, ha, -, ho, h⟩ := marching_cubes_file (f32 := f32) (parseF := parseF) r1
    cases ha
    exact ⟨file, ho, fun hl => by obtain ⟨ts, g1, g2, -⟩ := h hl; exact ⟨ts, g1, g2⟩⟩
  · obtain ⟨i, o, b', file, ha, -, ho, h⟩ := manifold_mesh_file (f32 := f32) (parseF := parseF) r2
    cases ha
    exact ⟨file, ho, fun hl => by obtain ⟨tris, g1, -⟩ := h hl; exact ⟨_, g1⟩⟩
  · rw [put_other _ _ (by decide)]
    nofun

end Cmd
end StlDice
