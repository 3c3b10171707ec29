import Verif.Props.ScriptKill

/-! # C128: the script in a directory that has other STL files -/

namespace StlDice
namespace Spec

/-- The command line `merge-stl -prefix p` takes a file of this name, if it exists: it starts with the prefix, goes on with
    anything without a slash, ends with the extension and is not the output itself. -/
def Fits (p ext n : Bytes) : Prop := n ≠ p ++ ext ∧ ∃ mid, (47 : UInt8) ∉ mid ∧ n = p ++ mid ++ ext

/-- A tile for which this run of stldice wrote a binvox file. -/
def NewTile {F : Type} (fl : Cmd.DiceFlags F) (fs fs' : FS) (t : Key) : Prop :=
  InDims fl.nx fl.ny fl.nz t ∧ ∃ a ∈ fl.args, fs.get (tileBin fl a t) = none ∧ fs'.get (tileBin fl a t) ≠ none

/-- What the names of the results of a stldice command with these arguments begin with. -/
def resultBase : List Bytes → Bytes
  | [a] => trimStl a
  | _ => ascii "out"

end Spec

namespace Cmd
open Spec BinVOX

section
variable {F : Type} [GoFloat F] [FloatText F]

/-- The voxcut lines, whatever the directory holds. -/
theorem cut_lines {lib : GL F} {load : Bytes → Option (List (Tri (Vec F)))} {workers : Nat} {fl : DiceFlags F} {d0 : Disk}
    (ts : List Key) : ∀ {d d' : Disk}, ts.Nodup → (∀ t ∈ ts, 0 ≤ t.X ∧ 0 ≤ t.Y ∧ 0 ≤ t.Z) → SameBin d0 d →
    ScriptRun (GoodLine lib load workers) d (ts.map (cutLine fl)) d' →
    (∀ t ∈ ts, (cutModel (F := F) d0 (stlFlags (tileStl fl t) (fl.args.map fun a => tileBin fl a t)) = none ∧ d' (tileStl fl t) = d (tileStl fl t)) ∨
      ∃ b tris, cutModel (F := F) d0 (stlFlags (tileStl fl t) (fl.args.map fun a => tileBin fl a t)) = some b ∧
        ToMeshRun lib b tris ∧ d' (tileStl fl t) = some (lib.stl tris)) ∧
    ∀ n, (∀ t ∈ ts, n ≠ tileStl fl t) → d' n = d n := by
  induction ts with
  | nil =>
    intro d d' _ _ _ h
    cases h
    exact ⟨fun t ht => (List.not_mem_nil ht).elim, fun _ _ => rfl⟩
  | cons t ts ih =>
    intro d d'' hnd hnn hb h
    rw [List.nodup_cons] at hnd
    have hne : ∀ u ∈ ts, tileStl fl u ≠ tileStl fl t := by
      intro u hu e
      have := tileStl_inj fl (hnn u (by simp [hu])) (hnn t (by simp)) e
      exact hnd.1 (this ▸ hu)
    have hbin : ∀ f ∈ fl.args.map fun a => tileBin fl a t, ∃ y, f = y ++ ascii ".binvox" := by
      intro f hf
      obtain ⟨a, -, rfl⟩ := List.mem_map.mp hf
      exact ⟨_, rfl⟩
    cases h with
    | @cons _ _ d' _ _ hl hr =>
      have hl : GoodLine lib load workers d (ascii "voxcut" :: ascii "-ostl" :: tileStl fl t :: fl.args.map fun a => tileBin fl a t) d' := hl
      have hsame := cutModel_same (F := F) hb (o := tileStl fl t) hbin
      rcases goodLine_voxcut (tileStl_ne_nil fl t) hl with ⟨h1, rfl⟩ | ⟨b, tris, h1, h2, rfl⟩
      · obtain ⟨i1, i2⟩ := ih hnd.2 (fun u hu => hnn u (by simp [hu])) hb hr
        refine ⟨?_, fun n hn => i2 n (fun u hu => hn u (by simp [hu]))⟩
        intro u hu
        rcases List.mem_cons.mp hu with rfl | hu
        · exact Or.inl ⟨hsame ▸ h1, i2 _ (fun v hv e => hne v hv e.symm)⟩
        · exact i1 u hu
      · obtain ⟨i1, i2⟩ := ih hnd.2 (fun u hu => hnn u (by simp [hu])) (sameBin_trans hb (put_stl_bin _ _ _)) hr
        refine ⟨?_, fun n hn => (i2 n (fun u hu => hn u (by simp [hu]))).trans (put_other _ _ (hn t (by simp)))⟩
        intro u hu
        rcases List.mem_cons.mp hu with rfl | hu
        · exact Or.inr ⟨b, tris, hsame ▸ h1, h2, (i2 _ (fun v hv e => hne v hv e.symm)).trans (put_self _ _ _)⟩
        · rcases i1 u hu with ⟨e1, e2⟩ | h
          · exact Or.inl ⟨e1, e2.trans (put_other _ _ (hne u hu))⟩
          · exact Or.inr h

/-- The merge line, whatever the directory holds. -/
theorem merge_line_gives {lib : GL F} {load : Bytes → Option (List (Tri (Vec F)))} {workers : Nat} {d d' : Disk} {p : Bytes}
    (h : GoodLine lib load workers d (mergeWords p) d') :
    (∀ n, n ≠ p ++ ascii ".stl" → d' n = d n) ∧
    (∀ n, Fits p (ascii ".stl") n → d n ≠ none → ((d n).bind load).isSome) ∧
    ∃ order : List Bytes, order.Nodup ∧ (∀ n, n ∈ order ↔ Fits p (ascii ".stl") n ∧ d n ≠ none) ∧
      d' (p ++ ascii ".stl") = some (if order = [] then [] else lib.stl (order.flatMap fun n => ((d n).bind load).getD [])) := by
  obtain ⟨names, e, hg, hm, hne⟩ := goodLine_merge h
  have ht := merge_stl_touches hm
  have hfit : ∀ n, n ∈ names.filter (fun f => f ≠ p ++ ascii ".stl") ↔ Fits p (ascii ".stl") n ∧ d n ≠ none := by
    intro n
    rw [List.mem_filter, decide_eq_true_eq, hg.2]
    unfold Fits
    constructor
    · rintro ⟨⟨h1, h2⟩, h3⟩; exact ⟨⟨h3, h2⟩, h1⟩
    · rintro ⟨⟨h3, h2⟩, h1⟩; exact ⟨⟨h1, h2⟩, h3⟩
  have hload : ∀ n, Fits p (ascii ".stl") n → d n ≠ none → ((d n).bind load).isSome := by
    intro n h1 h2
    by_contra hc
    have := (List.mem_filter.mp ((hfit n).mpr ⟨h1, h2⟩)).1
    refine hne (ht.2 (Or.inr ⟨n, this, h1.1, ?_⟩)).2
    simpa using hc
  refine ⟨ht.1, hload, ?_⟩
  have hnd : (names.filter (fun f => f ≠ p ++ ascii ".stl")).Nodup := hg.1.filter _
  have all : ∀ order, allTriangles (fun n => (d n).bind load) order = order.flatMap fun n => ((d n).bind load).getD [] := fun _ => rfl
  cases he : e with
  | fatal => exact absurd he hne
  | done =>
    subst he
    obtain ⟨⟨f, hf1, hf2⟩, -, order, ho, hd⟩ := merge_stl_done hm
    refine ⟨order, ho.nodup_iff.mpr hnd, fun n => (ho.mem_iff).trans (hfit n), ?_⟩
    rw [hd, all, if_neg]
    rintro rfl
    have : f ∈ ([] : List Bytes) := ho.mem_iff.mpr (List.mem_filter.mpr ⟨hf1, by simpa using hf2⟩)
    exact List.not_mem_nil this
  | panic =>
    subst he
    have hnil : names.filter (fun f => f ≠ p ++ ascii ".stl") = [] ∧ d' = put d (p ++ ascii ".stl") [] := by
      clear h
      generalize hx : Exit.panic = x at hm
      cases hm with
      | refused h => cases hx
      | failed h hr hret => cases hx
      | nilNotCreated h hr hret => cases hx
      | nilMesh h hr hret =>
        refine ⟨?_, rfl⟩
        have e1 := (mergeInputs_exact _ _ _).2 _ h
        rw [e1] at hr
        by_contra hc
        obtain ⟨order, -, e2⟩ := (merge_result _ _ hr _ hret).1 (by
          intro f hf
          obtain ⟨h1, h2⟩ := (hfit f).mp hf
          exact hload f h1 h2)
        rw [if_neg hc] at e2
        cases e2
      | @saved _ _ _ _ ok h hr hret hs => cases ok <;> cases hx
    refine ⟨[], List.nodup_nil, fun n => by rw [← hfit, hnil.1], ?_⟩
    rw [hnil.2, put_self, if_pos rfl]

/-- **C128.** The script of a successful stldice, run in any directory.  A tile in which the voxels of the binvox files leave
    something gets its mesh, another one keeps the STL file it may have had; nothing else changes but the merged file.
    The merged file is written if there are two tiles, then it is the mesh of all triangles of **every** file whose name fits,
    whoever has written it, and all of them had to be readable. -/
theorem script_any_directory {load : Bytes → Option (Mesh F)} {bbox : Mesh F → Box F} {env : Bytes → Key → FileEnv}
    {fl : DiceFlags F} {fs fs' : FS} {out : Bytes} (h : DiceCmd load bbox env fl fs out fs' .done)
    (hp : ∀ a ∈ fl.args, Plain a) (h0 : 0 ≤ fl.dim ∧ 0 ≤ fl.nx ∧ 0 ≤ fl.ny ∧ 0 ≤ fl.nz)
    {lib : GL F} {loadTris : Bytes → Option (List (Tri (Vec F)))} {workers : Nat} {d' : Disk}
    (hs : ScriptRun (GoodLine lib loadTris workers) fs'.get (shellWords out) d') :
    (∀ t, NewTile fl fs fs' t →
      (cutModel (F := F) fs'.get (stlFlags (tileStl fl t) (fl.args.map fun a => tileBin fl a t)) = none ∧
        d' (tileStl fl t) = fs'.get (tileStl fl t)) ∨
      ∃ b tris, cutModel (F := F) fs'.get (stlFlags (tileStl fl t) (fl.args.map fun a => tileBin fl a t)) = some b ∧
        ToMeshRun lib b tris ∧ d' (tileStl fl t) = some (lib.stl tris)) ∧
    (∀ n, n ≠ outName fl ++ ascii ".stl" → (∀ t, NewTile fl fs fs' t → n ≠ tileStl fl t) → d' n = fs'.get n) ∧
    ((∃ t u, t ≠ u ∧ NewTile fl fs fs' t ∧ NewTile fl fs fs' u) →
      (∀ n, Fits (outName fl) (ascii ".stl") n → d' n ≠ none → ((d' n).bind loadTris).isSome) ∧
      ∃ order : List Bytes, order.Nodup ∧ (∀ n, n ∈ order ↔ Fits (outName fl) (ascii ".stl") n ∧ d' n ≠ none) ∧
        d' (outName fl ++ ascii ".stl") =
          some (if order = [] then [] else lib.stl (order.flatMap fun n => ((d' n).bind loadTris).getD []))) ∧
    ((¬ ∃ t u, t ≠ u ∧ NewTile fl fs fs' t ∧ NewTile fl fs fs' u) →
      d' (outName fl ++ ascii ".stl") = fs'.get (outName fl ++ ascii ".stl")) := by
  obtain ⟨tiles, htm, hsort, rfl⟩ := (dice_script h).2 rfl
  have htm' : ∀ t, t ∈ tiles ↔ NewTile fl fs fs' t := htm
  have nn : ∀ t ∈ tiles, 0 ≤ t.X ∧ 0 ≤ t.Y ∧ 0 ≤ t.Z := by
    intro t ht
    have := ((htm t).mp ht).1
    unfold InDims at this
    omega
  have hnd : tiles.Nodup := by
    refine List.Nodup.of_map (tileName []) (hsort.imp ?_)
    intro a b h e
    rw [e] at h
    exact List.lt_irrefl b h
  rw [script_lines hp h0 nn, List.append_assoc, List.singleton_append] at hs
  have hlt : 1 < tiles.length ↔ ∃ t u, t ≠ u ∧ NewTile fl fs fs' t ∧ NewTile fl fs fs' u := by
    constructor
    · intro hl
      rcases tiles with _ | ⟨t, _ | ⟨u, l⟩⟩
      · simp at hl
      · simp at hl
      · refine ⟨t, u, ?_, (htm' t).mp (by simp), (htm' u).mp (by simp)⟩
        rintro rfl
        simp at hnd
    · rintro ⟨t, u, hne, h1, h2⟩
      have h1 := (htm' t).mpr h1
      have h2 := (htm' u).mpr h2
      rcases tiles with _ | ⟨a, _ | ⟨b, l⟩⟩
      · cases h1
      · simp only [List.mem_singleton] at h1 h2
        exact absurd (h1.trans h2.symm) hne
      · simp
  cases hs with
  | cons h1 hs =>
    have := goodLine_comment h1
    subst this
    obtain ⟨d1, hs1, hs2⟩ := scriptRun_append hs
    obtain ⟨hres, hother⟩ := cut_lines tiles hnd nn (fun y => rfl) hs1
    by_cases hl : 1 < tiles.length
    · rw [if_pos hl] at hs2
      cases hs2 with
      | cons h2 hs3 =>
        cases hs3
        obtain ⟨m1, m2, m3⟩ := merge_line_gives h2
        have same : ∀ n, Fits (outName fl) (ascii ".stl") n → d' n = d1 n := fun n hn => m1 n hn.1
        refine ⟨?_, ?_, fun _ => ⟨?_, ?_⟩, fun hc => absurd (hlt.mp hl) hc⟩
        · intro t ht
          rw [m1 _ (tileStl_ne_out fl t)]
          exact hres t ((htm' t).mpr ht)
        · intro n h1 h2
          rw [m1 n h1]
          exact hother n (fun t ht => h2 t ((htm' t).mp ht))
        · intro n hf hn
          rw [same n hf] at hn ⊢
          exact m2 n hf hn
        · obtain ⟨order, o1, o2, o3⟩ := m3
          refine ⟨order, o1, ?_, ?_⟩
          · intro n
            rw [o2]
            exact and_congr_right fun hf => by rw [same n hf]
          · rw [o3]
            have : (order.flatMap fun n => ((d1 n).bind loadTris).getD []) = order.flatMap fun n => ((d' n).bind loadTris).getD [] := by
              refine List.flatMap_congr ?_
              intro n hn
              rw [same n ((o2 n).mp hn).1]
            rw [this]
    · rw [if_neg hl] at hs2
      cases hs2
      refine ⟨fun t ht => hres t ((htm' t).mpr ht), fun n _ h2 => hother n (fun t ht => h2 t ((htm' t).mp ht)),
        fun hc => absurd (hlt.mpr hc) hl, fun _ => hother _ (fun t _ e => tileStl_ne_out fl t e.symm)⟩

/-- **C128.** A file that is already there and is no tile of the job, but whose name fits, is merged into the result. -/
theorem script_takes_strangers {load : Bytes → Option (Mesh F)} {bbox : Mesh F → Box F} {env : Bytes → Key → FileEnv}
    {fl : DiceFlags F} {fs fs' : FS} {out : Bytes} (h : DiceCmd load bbox env fl fs out fs' .done)
    (hp : ∀ a ∈ fl.args, Plain a) (h0 : 0 ≤ fl.dim ∧ 0 ≤ fl.nx ∧ 0 ≤ fl.ny ∧ 0 ≤ fl.nz)
    {lib : GL F} {loadTris : Bytes → Option (List (Tri (Vec F)))} {workers : Nat} {d' : Disk}
    (hs : ScriptRun (GoodLine lib loadTris workers) fs'.get (shellWords out) d')
    (htwo : ∃ t u, t ≠ u ∧ NewTile fl fs fs' t ∧ NewTile fl fs fs' u)
    {n c : Bytes} (hc : fs'.get n = some c) (hf : Fits (outName fl) (ascii ".stl") n) (hn : ∀ t, NewTile fl fs fs' t → n ≠ tileStl fl t) :
    ∃ ts pre post, loadTris c = some ts ∧ d' (outName fl ++ ascii ".stl") = some (lib.stl (pre ++ ts ++ post)) := by
  obtain ⟨-, h2, h3, -⟩ := script_any_directory h hp h0 hs
  obtain ⟨h3, order, -, ho, hd⟩ := h3 htwo
  have e : d' n = some c := (h2 n hf.1 hn).trans hc
  have hm : n ∈ order := (ho n).mpr ⟨hf, by rw [e]; exact nofun⟩
  have hl := h3 n hf (by rw [e]; exact nofun)
  rw [e] at hl
  obtain ⟨ts, hts⟩ := Option.isSome_iff_exists.mp hl
  obtain ⟨l, r, rfl⟩ := List.append_of_mem hm
  refine ⟨ts, l.flatMap fun n => ((d' n).bind loadTris).getD [], r.flatMap fun n => ((d' n).bind loadTris).getD [], hts, ?_⟩
  rw [hd, if_neg (by simp), List.flatMap_append, List.flatMap_cons, e, hts, Option.getD_some, ← List.append_assoc]

omit [GoFloat F] [FloatText F] in
theorem scriptRun_app {step : Disk → List Bytes → Disk → Prop} {l₁ l₂ : List (List Bytes)} {a b c : Disk} (h1 : ScriptRun step a l₁ b)
    (h2 : ScriptRun step b l₂ c) : ScriptRun step a (l₁ ++ l₂) c := by
  induction h1 with
  | nil => exact h2
  | cons h _ ih => exact .cons h (ih h2)

/-- The merge line has a good run if all other files whose names fit can be read. -/
theorem mergeLine_good (lib : GL F) {load : Bytes → Option (List (Tri (Vec F)))} {workers : Nat} (hw : 1 ≤ workers) {d : Disk}
    (hfin : FiniteDisk d) (p : Bytes) (hall : ∀ n, Fits p (ascii ".stl") n → ∀ c, d n = some c → (load c).isSome) :
    ∃ d', GoodLine lib load workers d [ascii "merge-stl", ascii "-f", ascii "-prefix", p] d' := by
  obtain ⟨names, hg⟩ := glob_exists hfin p (ascii ".stl")
  cases hm : mergeInputs (p ++ ascii ".stl") true names with
  | none =>
    obtain ⟨-, h2⟩ := (mergeInputs_exact _ _ _).1.mp hm
    cases h2
  | some files =>
    have e1 := (mergeInputs_exact _ _ _).2 _ hm
    obtain ⟨s, r, hr, hret⟩ := merge_returns (load := fun n => (d n).bind load) hw files
    obtain ⟨order, -, hres⟩ := (merge_result files s hr r hret).1 (by
      intro f hf
      rw [e1, List.mem_filter, decide_eq_true_eq] at hf
      obtain ⟨hne, hmid⟩ := (hg.2 f).mp hf.1
      cases hc : d f with
      | none => exact absurd hc hne
      | some c => exact hall f ⟨hf.2, hmid⟩ c hc)
    rw [hres] at hret
    by_cases h0 : files = []
    · rw [if_pos h0] at hret
      exact ⟨_, .panic, .merge hg (.nilMesh hm hr hret), fun h => nomatch h⟩
    · rw [if_neg h0] at hret
      exact ⟨_, _, .merge hg (.saved hm hr hret .ok), fun h => nomatch h⟩

/-- **C128.** When the script can run through: with two tiles exactly if every file that is there, whose name fits and that the script does not
    write anew can be read (given that the meshes of the tiles themselves can). -/
theorem script_runs_iff {load : Bytes → Option (Mesh F)} {bbox : Mesh F → Box F} {env : Bytes → Key → FileEnv}
    {fl : DiceFlags F} {fs fs' : FS} {out : Bytes} (h : DiceCmd load bbox env fl fs out fs' .done)
    (hp : ∀ a ∈ fl.args, Plain a) (h0 : 0 ≤ fl.dim ∧ 0 ≤ fl.nx ∧ 0 ≤ fl.ny ∧ 0 ≤ fl.nz)
    {lib : GL F} {loadTris : Bytes → Option (List (Tri (Vec F)))} {workers : Nat} (hw : 1 ≤ workers)
    (hmesh : ∀ t, NewTile fl fs fs' t → ∀ b tris, cutModel (F := F) fs'.get (stlFlags (tileStl fl t) (fl.args.map fun a => tileBin fl a t)) = some b →
      ToMeshRun lib b tris → (loadTris (lib.stl tris)).isSome)
    (htwo : ∃ t u, t ≠ u ∧ NewTile fl fs fs' t ∧ NewTile fl fs fs' u) :
    (∃ d', ScriptRun (GoodLine lib loadTris workers) fs'.get (shellWords out) d') ↔
      ∀ n c, fs'.get n = some c → Fits (outName fl) (ascii ".stl") n →
        (∀ t, NewTile fl fs fs' t → n = tileStl fl t →
          cutModel (F := F) fs'.get (stlFlags (tileStl fl t) (fl.args.map fun a => tileBin fl a t)) = none) →
        (loadTris c).isSome := by
  constructor
  · rintro ⟨d', hs⟩ n c hc hf hn
    obtain ⟨h1, h2, h3, -⟩ := script_any_directory h hp h0 hs
    have e : d' n = some c := by
      by_cases hx : ∃ t, NewTile fl fs fs' t ∧ n = tileStl fl t
      · obtain ⟨t, ht, e⟩ := hx
        rcases h1 t ht with ⟨-, e'⟩ | ⟨b, tris, e', -⟩
        · rw [e, e', ← e, hc]
        · rw [hn t ht e] at e'
          cases e'
      · rw [h2 n hf.1 (fun t ht e => hx ⟨t, ht, e⟩), hc]
    have := (h3 htwo).1 n hf (by rw [e]; exact nofun)
    rw [e] at this
    exact this
  · intro hall
    obtain ⟨tiles, htm, hsort, rfl⟩ := (dice_script h).2 rfl
    have htm' : ∀ t, t ∈ tiles ↔ NewTile fl fs fs' t := htm
    have nn : ∀ t ∈ tiles, 0 ≤ t.X ∧ 0 ≤ t.Y ∧ 0 ≤ t.Z := by
      intro t ht
      have := ((htm t).mp ht).1
      unfold InDims at this
      omega
    have hnd : tiles.Nodup := by
      refine List.Nodup.of_map (tileName []) (hsort.imp ?_)
      intro a b h e
      rw [e] at h
      exact List.lt_irrefl b h
    rw [script_lines hp h0 nn, List.append_assoc, List.singleton_append]
    obtain ⟨d1, h1, f1⟩ := cutLines_run lib loadTris workers fl tiles (finiteDisk_fs fs')
    obtain ⟨hres, hother⟩ := cut_lines tiles hnd nn (fun y => rfl) h1
    have hcomment : GoodLine lib loadTris workers fs'.get [ascii "#!/bin/bash", ascii "-x"] fs'.get :=
      ⟨.done, .comment (by decide), fun h => nomatch h⟩
    split
    · obtain ⟨d2, h2⟩ := mergeLine_good lib hw f1 (outName fl) (by
        intro n hf c hc
        by_cases hx : ∃ t ∈ tiles, n = tileStl fl t
        · obtain ⟨t, ht, e⟩ := hx
          rcases hres t ht with ⟨e1, e2⟩ | ⟨b, tris, e1, e2, e3⟩
          · refine hall n c (by rw [← hc, e, e2]) hf ?_
            intro u hu e'
            have : t = u := tileStl_inj fl (nn t ht) (nn u ((htm' u).mpr hu)) (e.symm.trans e')
            subst this
            exact e1
          · rw [e, e3] at hc
            injection hc with hc
            rw [← hc]
            exact hmesh t ((htm' t).mp ht) b tris e1 e2
        · have hx' : ∀ t ∈ tiles, n ≠ tileStl fl t := fun t ht e => hx ⟨t, ht, e⟩
          rw [hother n hx'] at hc
          exact hall n c hc hf (fun t ht e => absurd e (hx' t ((htm' t).mpr ht))))
      exact ⟨d2, .cons hcomment (scriptRun_app h1 (.cons h2 .nil))⟩
    · exact ⟨d1, .cons hcomment (scriptRun_app h1 .nil)⟩

end

/-! ## Which names of another job fit -/

theorem digits_prefix {a b r s : Bytes} {c : UInt8} (ha : ∀ d ∈ a, isDigit d = true) (hc : isDigit c = false)
    (h : a ++ r = b ++ c :: s) : a <+: b := by
  have h1 : a <+: b ++ c :: s := ⟨r, h⟩
  rcases Nat.lt_or_ge b.length a.length with hl | hl
  · exfalso
    have h2 : b ++ [c] <+: a := List.prefix_of_prefix_length_le ⟨s, by simp⟩ h1 (by rw [List.length_append, List.length_singleton]; omega)
    have := ha c (h2.subset (by simp))
    rw [hc] at this
    cases this
  · exact List.prefix_of_prefix_length_le h1 (List.prefix_append _ _) hl

theorem jobName_dash (P : Bytes) (dim nx ny nz : Int) :
    jobName P dim nx ny nz = P ++ 45 :: (fmtInt dim ++ 45 :: (fmtInt nx ++ 45 :: (fmtInt ny ++ 45 :: fmtInt nz))) := by
  unfold jobName dashed
  simp [List.intersperse]

theorem outName_base {F : Type} (fl : DiceFlags F) : outName fl = jobName (resultBase fl.args) fl.dim fl.nx fl.ny fl.nz := by
  unfold outName
  congr 1

/-- The name of another job with the same beginning and anything that starts with no digit after it. -/
theorem jobName_fits {P tail ext : Bytes} {dim nx ny nz dim' nx' ny' nz' : Int} {c : UInt8} {s : Bytes}
    (h0 : 0 ≤ dim ∧ 0 ≤ nx ∧ 0 ≤ ny ∧ 0 ≤ nz) (h0' : 0 ≤ dim' ∧ 0 ≤ nx' ∧ 0 ≤ ny' ∧ 0 ≤ nz')
    (hc : isDigit c = false) (hx : tail ++ ext = c :: s) (htail : (47 : UInt8) ∉ tail) :
    (∃ mid, (47 : UInt8) ∉ mid ∧ jobName P dim' nx' ny' nz' ++ tail ++ ext = jobName P dim nx ny nz ++ mid ++ ext) ↔
      dim' = dim ∧ nx' = nx ∧ ny' = ny ∧ fmtInt nz <+: fmtInt nz' := by
  have dig : ∀ {i : Int}, 0 ≤ i → ∀ d ∈ fmtInt i, isDigit d = true := by
    intro i hi
    rw [fmtInt_nonneg hi]
    exact fmtNat_digits _
  constructor
  · rintro ⟨mid, -, e⟩
    rw [jobName_dash, jobName_dash] at e
    simp only [List.append_assoc, List.cons_append, List.append_cancel_left_eq, List.cons.injEq, true_and] at e
    obtain ⟨e1, e⟩ := sep_left _ _ _ _ (dig h0'.1) (dig h0.1) e
    obtain ⟨e2, e⟩ := sep_left _ _ _ _ (dig h0'.2.1) (dig h0.2.1) e
    obtain ⟨e3, e⟩ := sep_left _ _ _ _ (dig h0'.2.2.1) (dig h0.2.2.1) e
    rw [hx] at e
    exact ⟨StlDice.fmtInt_injective e1, StlDice.fmtInt_injective e2, StlDice.fmtInt_injective e3, digits_prefix (dig h0.2.2.2) hc e.symm⟩
  · rintro ⟨rfl, rfl, rfl, r, hr⟩
    refine ⟨r ++ tail, ?_, ?_⟩
    · rw [List.mem_append]
      rintro (h | h)
      · have := dig h0'.2.2.2 47 (by rw [← hr]; simp [h])
        revert this
        decide
      · exact htail h
    · rw [jobName_dash, jobName_dash, ← hr]
      simp

/-- **C128.** Which STL files of tiles of another job fit, if the jobs' results begin alike (as those of all jobs with several
    arguments do): those of the jobs with the same -dim, -nx and -ny whose -nz begins with the digits of this -nz. -/
theorem tiles_fit_iff {F : Type} {fl fl' : DiceFlags F} (hP : resultBase fl'.args = resultBase fl.args)
    (h0 : 0 ≤ fl.dim ∧ 0 ≤ fl.nx ∧ 0 ≤ fl.ny ∧ 0 ≤ fl.nz) (h0' : 0 ≤ fl'.dim ∧ 0 ≤ fl'.nx ∧ 0 ≤ fl'.ny ∧ 0 ≤ fl'.nz)
    {t : Key} (ht : 0 ≤ t.X ∧ 0 ≤ t.Y ∧ 0 ≤ t.Z) :
    Fits (outName fl) (ascii ".stl") (tileStl fl' t) ↔
      fl'.dim = fl.dim ∧ fl'.nx = fl.nx ∧ fl'.ny = fl.ny ∧ fmtInt fl.nz <+: fmtInt fl'.nz := by
  have e1 : outName fl = jobName (resultBase fl.args) fl.dim fl.nx fl.ny fl.nz := outName_base fl
  have e2 : outName fl' = jobName (resultBase fl.args) fl'.dim fl'.nx fl'.ny fl'.nz := hP ▸ outName_base fl'
  have hx : ∃ s, tileSuffix t ++ ascii ".stl" = 45 :: s := ⟨_, rfl⟩
  obtain ⟨s, hx⟩ := hx
  rw [← jobName_fits (P := resultBase fl.args) h0 h0' (c := 45) (s := s) (by decide) hx (suffix_no_slash ht)]
  unfold Fits tileStl
  rw [tileName_suffix, e1, e2]
  constructor
  · exact fun h => h.2
  · refine fun h => ⟨?_, h⟩
    intro e
    obtain ⟨-, -, -, hn⟩ := (jobName_fits h0 h0' (c := 45) (by decide) hx (suffix_no_slash ht)).mp h
    have := congrArg List.length e
    have h2 := hn.length_le
    obtain ⟨e3, e4, e5, -⟩ := (jobName_fits h0 h0' (c := 45) (by decide) hx (suffix_no_slash ht)).mp h
    rw [e3, e4, e5, jobName_dash, jobName_dash] at this
    have hpos : 0 < (tileSuffix t).length := by
      have hs : ∃ r, tileSuffix t = 45 :: r := ⟨_, rfl⟩
      obtain ⟨r, hs⟩ := hs
      rw [hs]
      simp
    simp only [List.length_append, List.length_cons] at this
    omega

/-- **C128.** The merged file of such a job fits unless it is the same file. -/
theorem merged_fits_iff {F : Type} {fl fl' : DiceFlags F} (hP : resultBase fl'.args = resultBase fl.args)
    (h0 : 0 ≤ fl.dim ∧ 0 ≤ fl.nx ∧ 0 ≤ fl.ny ∧ 0 ≤ fl.nz) (h0' : 0 ≤ fl'.dim ∧ 0 ≤ fl'.nx ∧ 0 ≤ fl'.ny ∧ 0 ≤ fl'.nz) :
    Fits (outName fl) (ascii ".stl") (outName fl' ++ ascii ".stl") ↔
      fl'.dim = fl.dim ∧ fl'.nx = fl.nx ∧ fl'.ny = fl.ny ∧ fmtInt fl.nz <+: fmtInt fl'.nz ∧ fl'.nz ≠ fl.nz := by
  have e1 : outName fl = jobName (resultBase fl.args) fl.dim fl.nx fl.ny fl.nz := outName_base fl
  have e2 : outName fl' = jobName (resultBase fl.args) fl'.dim fl'.nx fl'.ny fl'.nz := hP ▸ outName_base fl'
  have hx : ∃ s, [] ++ ascii ".stl" = 46 :: s := ⟨_, rfl⟩
  obtain ⟨s, hx⟩ := hx
  have key := jobName_fits (P := resultBase fl.args) h0 h0' (c := 46) (s := s) (by decide) hx List.not_mem_nil
  rw [List.append_nil] at key
  unfold Fits
  rw [e1, e2, key]
  constructor
  · rintro ⟨h1, h2, h3, h4, h5⟩
    refine ⟨h2, h3, h4, h5, ?_⟩
    intro h6
    exact h1 (by rw [h2, h3, h4, h6])
  · rintro ⟨h2, h3, h4, h5, h6⟩
    refine ⟨?_, h2, h3, h4, h5⟩
    intro e
    rw [h2, h3, h4, jobName_dash, jobName_dash] at e
    simp only [List.append_assoc, List.cons_append, List.append_cancel_left_eq, List.cons.injEq, true_and, List.append_cancel_right_eq] at e
    exact h6 (StlDice.fmtInt_injective e)

theorem natDigitsRev_fuel : ∀ (f g n : Nat), n < f → n < g → natDigitsRev f n = natDigitsRev g n := by
  intro f
  induction f with
  | zero => intro g n h; omega
  | succ f ih =>
    intro g n hf hg
    cases g with
    | zero => omega
    | succ g =>
      unfold natDigitsRev
      split
      · rfl
      · rw [ih g (n / 10) (by omega) (by omega)]

theorem fmtNat_step {n : Nat} (h : 10 ≤ n) : fmtNat n = fmtNat (n / 10) ++ [UInt8.ofNat (48 + n % 10)] := by
  unfold fmtNat
  rw [natDigitsRev, if_neg (by omega), List.reverse_cons, natDigitsRev_fuel n (n / 10 + 1) (n / 10) (by omega) (by omega)]

/-- The digits of a positive number begin those of another one iff it is the other one with some last digits left out. -/
theorem digits_begin_iff {n m : Nat} (hn : 0 < n) : fmtNat n <+: fmtNat m ↔ ∃ k, m / 10 ^ k = n := by
  constructor
  · intro h
    induction m using Nat.strong_induction_on with
    | _ m ih =>
      by_cases h10 : 10 ≤ m
      · rw [fmtNat_step h10, List.prefix_concat_iff] at h
        rcases h with h | h
        · refine ⟨0, ?_⟩
          rw [← fmtNat_step h10] at h
          have := congrArg digitsVal h
          rw [fmtNat_val, fmtNat_val] at this
          simp [this]
        · obtain ⟨k, hk⟩ := ih (m / 10) (by omega) h
          exact ⟨k + 1, by rw [Nat.pow_succ, Nat.mul_comm, ← Nat.div_div_eq_div_mul, hk]⟩
      · have h1 : (fmtNat m).length = 1 := by
          unfold fmtNat natDigitsRev
          rw [if_pos (by omega)]
          rfl
        have h2 := h.length_le
        have h3 : 0 < (fmtNat n).length := List.length_pos_iff.mpr (fmtNat_ne_nil n)
        have h4 := h.eq_of_length (by omega)
        have := congrArg digitsVal h4
        rw [fmtNat_val, fmtNat_val] at this
        exact ⟨0, by simp [this]⟩
  · rintro ⟨k, hk⟩
    induction k generalizing m with
    | zero => simp at hk; rw [hk]
    | succ k ih =>
      rw [Nat.pow_succ, Nat.mul_comm, ← Nat.div_div_eq_div_mul] at hk
      have := ih hk
      by_cases h10 : 10 ≤ m
      · rw [fmtNat_step h10]
        exact this.trans (List.prefix_append _ _)
      · have : m / 10 = 0 := by omega
        rw [this] at hk
        simp at hk
        omega

/-- **C128.** For a positive -nz the digits condition of `tiles_fit_iff` and `merged_fits_iff` says that this -nz is the other one without
    some of its last digits, as 1 is for 10 or 12. -/
theorem nz_begins_iff {nz nz' : Int} (h : 0 < nz) (h' : 0 ≤ nz') : fmtInt nz <+: fmtInt nz' ↔ ∃ k : Nat, nz' / 10 ^ k = nz := by
  obtain ⟨n, rfl⟩ := Int.eq_ofNat_of_zero_le (Int.le_of_lt h)
  obtain ⟨m, rfl⟩ := Int.eq_ofNat_of_zero_le h'
  show fmtNat n <+: fmtNat m ↔ _
  rw [digits_begin_iff (by omega)]
  refine exists_congr fun k => ?_
  norm_cast

/-- A tile of a job with `-nz 10`. -/
def exStranger : Bytes := ascii "out-4-2-1-10-00-00-00.stl"

/-- Two walls diced with `-nz 1` in a directory that has a tile of a job with `-nz 10`: both tiles are new, the script runs through,
    and the stranger's triangles are in the merged file. -/
example [FloatText ℚ] [LawfulFloatText ℚ] (mB : Mesh ℚ) (bits : ℚ → Nat) (norm : Tri (Vec ℚ) → Vec ℚ) (tri : Tri (Vec ℚ)) (content : Bytes) :
    ∃ (load : Bytes → Option (Mesh ℚ)) (out : Bytes) (fs' : FS) (d' : Disk) (pre post : List (Tri (Vec ℚ))),
      DiceCmd load (fun _ => ⟨⟨0, 0, 0⟩, ⟨0, 0, 0⟩⟩) (fun _ _ => ⟨true, [], true⟩) exFlags ((exStranger, content) :: exDir) out fs' .done ∧
      NewTile exFlags ((exStranger, content) :: exDir) fs' ⟨0, 0, 0⟩ ∧ NewTile exFlags ((exStranger, content) :: exDir) fs' ⟨1, 0, 0⟩ ∧
      exStranger = tileStl { exFlags with nz := 10 } ⟨0, 0, 0⟩ ∧
      ScriptRun (GoodLine ⟨bits, norm, faceMesh⟩ (fun c => some (List.replicate ((c.length - 84) / 50) tri)) 3) fs'.get (shellWords out) d' ∧
      d' (outName exFlags ++ ascii ".stl") =
        some (GL.stl ⟨bits, norm, faceMesh⟩ (pre ++ List.replicate ((content.length - 84) / 50) tri ++ post)) := by
  obtain ⟨load, mesh, whole, -, -, -, -, -, hA, -, job, -⟩ := exJob_runs wallMesh mB (fun _ => 0) (fun _ => 0) (fun _ => 0)
  have hS : exStranger = tileStl { exFlags with nz := 10 } ⟨0, 0, 0⟩ := by decide
  have get2 : ∀ {n : Bytes}, n ≠ exStranger → GoMap.get ((exStranger, content) :: exDir) n = exDir.get n := by
    intro n hn
    show (if exStranger = n then some content else exDir.get n) = _
    rw [if_neg hn.symm]
  have loads : ∀ a ∈ exFlags.args, (GoMap.get ((exStranger, content) :: exDir) a).bind load = some (mesh a) := by
    intro a ha
    rw [get2]
    · exact job.loads a ha
    · rintro rfl
      revert ha
      decide
  have fresh : ∀ a ∈ exFlags.args, ∀ t, InDims 2 1 1 t → GoMap.get ((exStranger, content) :: exDir) (tileBin exFlags a t) = none := by
    intro a ha t ht
    rw [get2]
    · exact job.freshTiles a ha t ht
    · rw [hS]
      exact fun e => tileStl_ne_bin _ _ e.symm
  have hB : ∀ a, exFlags.args.head? = some a → exFlags.mbb.join.getD ((fun _ => (⟨⟨0, 0, 0⟩, ⟨0, 0, 0⟩⟩ : Box ℚ)) (mesh a)) = ⟨⟨0, 0, 0⟩, ⟨4, 4, 4⟩⟩ := fun _ _ => rfl
  obtain ⟨fs', pf, ha⟩ := diceArgs_exists (bbox := fun _ => ⟨⟨0, 0, 0⟩, ⟨0, 0, 0⟩⟩) exEnv_good job.layout
    ⟨job.dims.1.1, job.dims.2.1.1, job.dims.2.2.1⟩ mesh exFlags.args ((exStranger, content) :: exDir) exFlags.mbb.join [] hB loads
  have h : DiceCmd load (fun _ => ⟨⟨0, 0, 0⟩, ⟨0, 0, 0⟩⟩) (fun _ _ => ⟨true, [], true⟩) exFlags ((exStranger, content) :: exDir) _ fs' .done :=
    .done (by decide) (by decide) nofun rfl ha (List.Perm.refl _)
  obtain ⟨g1, -⟩ := diceArgs_fresh exEnv_good job.layout mesh ha rfl hB job.names loads (by
    intro a hh t ht
    rw [← tileBin_spec]
    exact fresh a hh t ((mem_tileIndices _ _ _ t).mp ht))
  have haa : ascii "a.stl" ∈ exFlags.args := by simp [exFlags]
  have new : ∀ t l, InDims 2 1 1 t → 0 ≤ l.Z → l.Z < 4 →
      (∃ r ∈ sliceRows (tileModel exLayout (⟨⟨0, 0, 0⟩, ⟨4, 4, 4⟩⟩ : Box ℚ) t) wallMesh l.Z, l ∈ r) →
      NewTile exFlags ((exStranger, content) :: exDir) fs' t := by
    intro t l ht z0 z1 hl
    obtain ⟨vox, hvox⟩ := tile_vox_exists (L := exLayout) (B := (⟨⟨0, 0, 0⟩, ⟨4, 4, 4⟩⟩ : Box ℚ)) (by decide) (mesh (ascii "a.stl")) t
    have e := g1 _ haa t ((mem_tileIndices _ _ _ t).mpr ht) vox hvox
    rw [hA] at hvox
    obtain ⟨c, hc, -, -, hk⟩ := voxelize_exact _ _ (by unfold zeroDim; show ¬ ((2 : Int) = 0 ∨ (4 : Int) = 0 ∨ (4 : Int) = 0); decide) _ hvox
    injection hc with hc
    subst hc
    have hv := (hk l).mpr ⟨z0, z1, ((sliceRows_mem _ _ _ _).mp hl).2⟩
    refine ⟨ht, _, haa, fresh _ haa t ht, ?_⟩
    rw [tileBin_spec, e]
    unfold tileContent
    rw [if_neg]
    · exact nofun
    · intro h0
      rw [List.length_eq_zero_iff.mp h0] at hv
      cases hv
  have n0 := new ⟨0, 0, 0⟩ ⟨1, 1, 1⟩ (by unfold InDims; decide) (by decide) (by decide) (by decide +kernel)
  have n1 := new ⟨1, 0, 0⟩ ⟨0, 1, 1⟩ (by unfold InDims; decide) (by decide) (by decide) (by decide +kernel)
  have hp : ∀ a ∈ exFlags.args, Plain a := job.plain
  have h0 : 0 ≤ exFlags.dim ∧ 0 ≤ exFlags.nx ∧ 0 ≤ exFlags.ny ∧ 0 ≤ exFlags.nz := by decide
  have two : ∃ t u, t ≠ u ∧ NewTile exFlags ((exStranger, content) :: exDir) fs' t ∧ NewTile exFlags ((exStranger, content) :: exDir) fs' u :=
    ⟨_, _, by decide, n0, n1⟩
  obtain ⟨d', hs⟩ := (script_runs_iff (lib := ⟨bits, norm, faceMesh⟩) (loadTris := fun c => some (List.replicate ((c.length - 84) / 50) tri))
    (workers := 3) h hp h0 (by decide) (fun _ _ _ _ _ _ => rfl) two).mpr (fun _ _ _ _ _ => rfl)
  have hfit : Fits (outName exFlags) (ascii ".stl") exStranger := by
    rw [hS]
    refine (tiles_fit_iff (fl := exFlags) (fl' := { exFlags with nz := 10 }) (t := ⟨0, 0, 0⟩) rfl h0 (by decide) (by decide)).mpr ⟨rfl, rfl, rfl, ?_⟩
    exact (nz_begins_iff (by decide) (by decide)).mpr ⟨1, by decide⟩
  have hc : fs'.get exStranger = some content := dice_cmd_keeps h (by simp [GoMap.get])
  obtain ⟨ts, pre, post, e1, e2⟩ := script_takes_strangers h hp h0 hs two hc hfit (by
    intro t ht
    have ht := ht.1
    unfold InDims at ht
    intro e
    rw [hS] at e
    have hl := congrArg List.length e
    have nn : 0 ≤ t.X ∧ 0 ≤ t.Y ∧ 0 ≤ t.Z := ⟨ht.1, ht.2.2.1, ht.2.2.2.2.1⟩
    have : t = ⟨0, 0, 0⟩ ∨ t = ⟨1, 0, 0⟩ := by
      obtain ⟨x, y, z⟩ := t
      change (0 ≤ x ∧ x < 2 ∧ 0 ≤ y ∧ y < 1 ∧ 0 ≤ z ∧ z < 1) at ht
      simp only [Key.mk.injEq]
      omega
    rcases this with rfl | rfl
    · revert hl; decide
    · revert hl; decide)
  injection e1 with e1
  exact ⟨load, _, fs', d', pre, post, h, n0, n1, hS, hs, by rw [e2, e1]⟩

end Cmd
end StlDice
