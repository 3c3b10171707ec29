import Verif.Props.VoxcutOut
import Verif.Props.StlMerge
import Verif.Props.ShellWorld
import Verif.Props.VShellFile

/-! # C76: merge-binvox from the files that match to the shell file it leaves -/

namespace StlDice
namespace Cmd
open Spec BinVOX

section
variable {F : Type} [GoFloat F] [FloatText F] {d d' : Disk} {sch : Bytes → AddSched} {pre : Bytes} {force : Bool}
  {globbed : List Bytes} {e : Exit}

/-- An error or an unreadable file makes `Merge` fail, wherever it is. -/
theorem merge_cmd_unreadable (files : List (AddSched × Option (BinVOX F))) (h : ∃ p ∈ files, p.2 = none) :
    VShell.Merge files = none := by
  have hn : ∀ l : List (AddSched × Option (BinVOX F)), l.foldl VShell.mergeStep none = none := by
    intro l
    induction l with
    | nil => rfl
    | cons p l ih => rw [List.foldl_cons]; exact ih
  have : ∀ (l : List (AddSched × Option (BinVOX F))) (acc : Option (Option (VShell F))), (∃ p ∈ l, p.2 = none) →
      l.foldl VShell.mergeStep acc = none := by
    intro l
    induction l with
    | nil => rintro acc ⟨p, hp, _⟩; exact (List.not_mem_nil hp).elim
    | cons q l ih =>
      rintro acc ⟨p, hp, hnone⟩
      rw [List.foldl_cons]
      rcases List.mem_cons.mp hp with rfl | hp
      · have : VShell.mergeStep acc p = none := by
          unfold VShell.mergeStep
          rw [hnone]
          cases acc <;> rfl
        rw [this]
        exact hn l
      · exact ih _ ⟨p, hp, hnone⟩
  exact this files _ h

/-- Once there is a shell, `Merge` never returns a nil one. -/
theorem merge_some (files : List (AddSched × Option (BinVOX F))) (h : files ≠ []) : VShell.Merge files ≠ some none := by
  have : ∀ (l : List (AddSched × Option (BinVOX F))) (acc : Option (Option (VShell F))), acc ≠ some none →
      l.foldl VShell.mergeStep acc ≠ some none := by
    intro l
    induction l with
    | nil => intro acc h; exact h
    | cons p l ih =>
      intro acc h
      rw [List.foldl_cons]
      apply ih
      unfold VShell.mergeStep
      rcases acc with _ | _ | vs
      · simp
      · exact (h rfl).elim
      · cases p.2 with
        | none => simp
        | some bv =>
          dsimp only
          cases vs.Add p.1 bv <;> simp
  cases files with
  | nil => exact (h rfl).elim
  | cons p l =>
    unfold VShell.Merge
    rw [List.foldl_cons]
    apply this
    unfold VShell.mergeStep
    cases p.2 with
    | none => simp
    | some bv =>
      dsimp only
      cases VShell.New p.1 bv <;> simp

/-- **C76.** merge-binvox changes no file but `prefix.vsh`, and none when one of the input files
    cannot be read: then it fails. -/
theorem merge_binvox_touches (h : MergeBinvoxRun (F := F) d sch pre force globbed d' e) :
    (∀ n, n ≠ pre ++ ascii ".vsh" → d' n = d n) ∧
    ((∃ f ∈ globbed, f ≠ pre ++ ascii ".vsh" ∧ BinVOX.Read (F := F) (input d f) wholeRegion = none) →
      d' = d ∧ e = .fatal) := by
  have hbad : ∀ {files}, mergeInputs (pre ++ ascii ".vsh") force globbed = some files →
      (∃ f ∈ globbed, f ≠ pre ++ ascii ".vsh" ∧ BinVOX.Read (F := F) (input d f) wholeRegion = none) →
      VShell.Merge (files.map fun f => (sch f, BinVOX.Read (F := F) (input d f) ⟨0, 0, 0, 0, 0, 0⟩)) = none := by
    rintro files hm ⟨f, hf, hne, hr⟩
    have e1 := (mergeInputs_exact _ _ _).2 _ hm
    refine merge_cmd_unreadable _ ⟨_, List.mem_map_of_mem (e1 ▸ List.mem_filter.mpr ⟨hf, by simpa using hne⟩), ?_⟩
    exact hr
  cases h with
  | refused h => exact ⟨fun _ _ => rfl, fun _ => ⟨rfl, rfl⟩⟩
  | failed h hm => exact ⟨fun _ _ => rfl, fun _ => ⟨rfl, rfl⟩⟩
  | nilShell created h hm =>
    refine ⟨fun n hn => ?_, fun hb => ?_⟩
    · cases created with
      | false => rfl
      | true => exact put_other _ _ hn
    · rw [hbad h hb] at hm; cases hm
  | @written files vs env h hm =>
    refine ⟨fun n hn => ?_, fun hb => ?_⟩
    · generalize (vs.Write env ⟨0, 0, 0, 0, 0, 0⟩).1 = c
      cases c with
      | none => rfl
      | some c => exact put_other _ _ hn
    · rw [hbad h hb] at hm; cases hm

/-- **C76.** The command panics exactly when nothing matched and the output could be created; the output is
    then an empty file, which no reader accepts. -/
theorem merge_binvox_nothing (h : MergeBinvoxRun (F := F) d sch pre force globbed d' e)
    (hb : ∀ f ∈ globbed, ∃ stem, f = stem ++ ascii ".binvox") :
    (e = .panic → globbed = [] ∧ d' = put d (pre ++ ascii ".vsh") [] ∧
      ∀ r, VShell.Read (F := F) (input d' (pre ++ ascii ".vsh")) r = none) ∧
    (globbed = [] → e ≠ .done) := by
  have hf : ∀ {files}, mergeInputs (pre ++ ascii ".vsh") force globbed = some files → files = globbed := by
    intro files hm
    rw [(mergeInputs_exact _ _ _).2 _ hm, List.filter_eq_self]
    intro f hf
    obtain ⟨stem, rfl⟩ := hb f hf
    have h0 := mergeBinvox_never_refuses pre [stem ++ ascii ".binvox"] (by simp)
    have : pre ++ ascii ".vsh" ∉ [stem ++ ascii ".binvox"] := by
      intro hin
      have := (mergeInputs_exact (pre ++ ascii ".vsh") false [stem ++ ascii ".binvox"]).1.mpr ⟨hin, rfl⟩
      rw [h0] at this
      cases this
    simp only [List.mem_singleton] at this
    simpa using fun h => this h.symm
  have hread : ∀ r, VShell.Read (F := F) (input (put d (pre ++ ascii ".vsh") []) (pre ++ ascii ".vsh")) r = none := by
    intro r
    unfold input
    rw [put_self]
    show VShell.read (F := F) ⟨[], true⟩ r = none
    unfold VShell.read readHeader readLine
    split <;> rfl
  cases h with
  | refused h => exact ⟨(fun h => nomatch h), (fun _ h => nomatch h)⟩
  | failed h hm => exact ⟨(fun h => nomatch h), (fun _ h => nomatch h)⟩
  | @nilShell files created h hm =>
    constructor
    · intro he
      cases created with
      | false => cases he
      | true =>
        refine ⟨?_, rfl, hread⟩
        by_contra hne
        refine merge_some _ ?_ hm
        rw [hf h]
        simpa using hne
    · intro _
      cases created <;> simp
  | @written files vs env h hm =>
    constructor
    · intro he
      split at he <;> cases he
    · intro h0
      exfalso
      have := hf h
      rw [h0] at this
      rw [this] at hm
      cases hm

/-- **C76.** If merge-binvox reports success, every input could be read and merged, and the file is the one
    `Write` leaves for the merged shell. -/
theorem merge_binvox_done (h : MergeBinvoxRun (F := F) d sch pre force globbed d' .done) :
    ∃ vs env c, VShell.Merge ((globbed.filter fun f => f ≠ pre ++ ascii ".vsh").map fun f =>
        (sch f, BinVOX.Read (F := F) (input d f) wholeRegion)) = some (some vs) ∧
      vs.Write env wholeRegion = (some c, true) ∧ d' = put d (pre ++ ascii ".vsh") c := by
  generalize he : Exit.done = e at h
  cases h with
  | refused h => cases he
  | failed h hm => cases he
  | nilShell created h hm => cases created <;> cases he
  | @written files vs env h hm =>
    have e1 := (mergeInputs_exact _ _ _).2 _ h
    rw [e1] at hm
    refine ⟨vs, env, ?_⟩
    have hw : (⟨0, 0, 0, 0, 0, 0⟩ : Region) = wholeRegion := rfl
    rw [hw] at hm he ⊢
    generalize hW : vs.Write env wholeRegion = W at he
    obtain ⟨c, ok⟩ := W
    cases ok with
    | false => cases he
    | true =>
      cases c with
      | none =>
        exfalso
        unfold VShell.Write at hW
        split at hW
        · cases hW
        · dsimp only at hW
          split at hW <;> cases hW
      | some c => exact ⟨c, hm, rfl, rfl⟩

end

/-- A neighbour map is special (0 or 0xffffffff) exactly for a voxel without neighbours. -/
theorem special_iff_isolated {S : Key → Prop} {k : Key} {N : NeighborBitMap} (h : NbrSpec S k N) :
    Special N ↔ ¬ ∃ x y z : Int, IsOffset x y z ∧ S (k.shift x y z) := by
  constructor
  · rintro (h0 | h0) ⟨x, y, z, ho, hs⟩
    · obtain ⟨⟨a1, a2⟩, ⟨b1, b2⟩, ⟨c1, c2⟩, hne⟩ := ho
      have := (h (9 * (x + 1) + 3 * (y + 1) + (z + 1)).toNat).mpr ⟨x, y, z, ⟨⟨a1, a2⟩, ⟨b1, b2⟩, ⟨c1, c2⟩, hne⟩, by omega, hs⟩
      rw [h0] at this
      simp at this
    · have : N.getLsbD 31 = true := by rw [h0]; decide
      obtain ⟨x, y, z, ⟨⟨a1, a2⟩, ⟨b1, b2⟩, ⟨c1, c2⟩, _⟩, he, _⟩ := (h 31).mp this
      omega
  · intro hno
    left
    apply BitVec.eq_of_getLsbD_eq
    intro i hi
    rw [BitVec.getLsbD_zero]
    cases hb : N.getLsbD i with
    | false => rfl
    | true =>
      obtain ⟨x, y, z, ho, _, hs⟩ := (h i).mp hb
      exact (hno ⟨x, y, z, ho, hs⟩).elim

/-- **C76.** From binvox files to the shell file: for models of one resolution on one lattice, pairwise
    disjoint, each origin comparable with the current one, there is a successful run, and the file reads
    back as exactly the exposed voxels of the union that have a neighbour, with exact neighbour maps at their
    exact place — if the shell has no run of 65536 or more equal cells.  Exposed voxels without any
    neighbour are lost (see C21). -/
theorem merge_binvox_file [FloatText ℚ] [LawfulFloatText ℚ] {d : Disk} {sch : Bytes → AddSched} {pre : Bytes} {force : Bool}
    (bx by' bz v : ℚ) (hv0 : 0 < v) (n0 : Bytes) (ns : List Bytes) (info : Bytes → MFile)
    (hb : ∀ n ∈ n0 :: ns, ∃ stem, n = stem ++ ascii ".binvox")
    (hinfo : ∀ n ∈ n0 :: ns, Holds d n (info n).bv ∧ (info n).sch = sch n)
    (hs : 0 < (info n0).bv.Scale) (hl : OnLattice bx by' bz v (info n0))
    (hvp : (info n0).bv.VoxelsPerMM = v) (hw : (info n0).bv.white ≠ []) (hval : (info n0).sch.Valid (info n0).bv 0 0 0)
    (hm : Mergeable bx by' bz v (info n0).t (info n0).world (info n0).sch.ordLookup.length (ns.map info)) :
    ∃ (vs : VShell ℚ) (m : Key),
      VShell.Merge ((n0 :: ns).map fun f => (sch f, BinVOX.Read (F := ℚ) (input d f) wholeRegion)) = some (some vs) ∧
      (∀ n ∈ n0 :: ns, KLe m (info n).t) ∧ (∃ n ∈ n0 :: ns, (info n).t = m) ∧
      (∀ N : Key, ((info n0).bv.NX ≤ N.X ∧ (info n0).bv.NY ≤ N.Y ∧ (info n0).bv.NZ ≤ N.Z) →
        (∀ n ∈ n0 :: ns, ∀ k, (info n).world k → k.X - m.X < N.X ∧ k.Y - m.Y < N.Y ∧ k.Z - m.Z < N.Z) →
        vs.NX ≤ N.X ∧ vs.NY ≤ N.Y ∧ vs.NZ ≤ N.Z) ∧
      (vs.NX ≤ maxInt → vs.NY ≤ maxInt → vs.NZ ≤ maxInt →
        NoLongRun ((cells ⟨0, 0, 0, vs.NX, vs.NY, vs.NZ⟩).map (valueAt vs)) →
        ∃ file b', MergeBinvoxRun (F := ℚ) d sch pre force (n0 :: ns) (put d (pre ++ ascii ".vsh") file) .done ∧
          VShell.Read (F := ℚ) (input (put d (pre ++ ascii ".vsh") file) (pre ++ ascii ".vsh")) wholeRegion = some b' ∧
          b'.TX = bx + (m.X : ℚ) / v ∧ b'.TY = by' + (m.Y : ℚ) / v ∧ b'.TZ = bz + (m.Z : ℚ) / v ∧ b'.VoxelsPerMM = v ∧
          (b'.Voxels.map VShVoxel.key).Nodup ∧
          ∀ w, w ∈ b'.Voxels ↔
            (∃ n ∈ n0 :: ns, (info n).world (w.key.shift m.X m.Y m.Z)) ∧
            Exposed (fun k => ∃ n ∈ n0 :: ns, (info n).world (k.shift m.X m.Y m.Z)) w.key ∧
            NbrSpec (fun k => ∃ n ∈ n0 :: ns, (info n).world (k.shift m.X m.Y m.Z)) w.key w.N ∧
            ∃ x y z : Int, IsOffset x y z ∧ ∃ n ∈ n0 :: ns, (info n).world ((w.key.shift x y z).shift m.X m.Y m.Z)) := by
  have h0 := hinfo n0 (by simp)
  have hd : 0 < (info n0).bv.Dim := lt_of_lt_of_le h0.1.2.1 (dimOf_le _ _ _).1
  obtain ⟨vs, m, hmerge, t1, t2, t3, hvp', hmin, horig, hfits, hleast, hsh⟩ := merge_world_exact bx by' bz v hv0 (info n0) (ns.map info) hs hd hl hvp hw hval hm
  have hlist : (info n0 :: ns.map info).map (fun f => (f.sch, some f.bv)) =
      (n0 :: ns).map fun f => (sch f, BinVOX.Read (F := ℚ) (input d f) wholeRegion) := by
    rw [← List.map_cons, List.map_map]
    apply List.map_congr_left
    intro n hn
    obtain ⟨⟨h1, -⟩, h2⟩ := hinfo n hn
    simp only [Function.comp]
    rw [h1, h2]
  rw [hlist] at hmerge
  let W : Key → Prop := fun k => ∃ n ∈ n0 :: ns, (info n).world (k.shift m.X m.Y m.Z)
  have hsh : IsShell W vs.Voxels := by
    refine (isShell_congr ?_ _).mp hsh
    intro k
    rw [← List.map_cons]
    constructor
    · rintro ⟨f, hf, h⟩
      obtain ⟨n, hn, rfl⟩ := List.mem_map.mp hf
      exact ⟨n, hn, h⟩
    · rintro ⟨n, hn, h⟩
      exact ⟨info n, List.mem_map_of_mem hn, h⟩
  have hWpos : ∀ k, W k → 0 ≤ k.X ∧ 0 ≤ k.Y ∧ 0 ≤ k.Z := by
    rintro k ⟨n, hn, h⟩
    obtain ⟨hh, -⟩ := hinfo n hn
    obtain ⟨inp, -, hr⟩ := holds_input hh
    have hwo := read_whiteOnly inp _ _ hr
    have hle := hmin (info n) (by rw [← List.map_cons]; exact List.mem_map_of_mem hn)
    have hvox : Vox (info n).bv ⟨k.X + m.X - (info n).t.X, k.Y + m.Y - (info n).t.Y, k.Z + m.Z - (info n).t.Z⟩ := by
      rcases h with h | h
      · exact h
      · exfalso
        have hc : (info n).bv.color = [] := by
          obtain ⟨_, _, _, _, _, _, _, _, _, _, hbv⟩ := (read_iff _ _ _).mp hr
          rw [hbv]
          rfl
        rw [hc] at h
        simp [GoMap.has, GoMap.get] at h
    obtain ⟨a1, _, a2, _, a3, _⟩ := read_vox_inDims inp _ hr hh.2.1 hh.2.2.1 hh.2.2.2 _ hvox
    unfold KLe at hle
    dsimp only at a1 a2 a3
    omega
  have hin : ∀ w ∈ vs.Voxels, InDims vs.NX vs.NY vs.NZ w.key := by
    intro w hw
    have p := hWpos w.key ((hsh.2 w).mp hw).1
    have q := hfits w hw
    exact ⟨p.1, q.1, p.2.1, q.2.1, p.2.2, q.2.2⟩
  refine ⟨vs, m, hmerge, fun n hn => hmin (info n) (by rw [← List.map_cons]; exact List.mem_map_of_mem hn), ?_, ?_, fun x1 y1 z1 hnl => ?_⟩
  · obtain ⟨f, hf, e⟩ := horig
    rw [← List.map_cons] at hf
    obtain ⟨n, hn, rfl⟩ := List.mem_map.mp hf
    exact ⟨n, hn, e⟩
  · intro N h1 h2
    refine hleast N h1 ?_
    intro f hf
    rw [← List.map_cons] at hf
    obtain ⟨n, hn, rfl⟩ := List.mem_map.mp hf
    exact h2 n hn
  have hne : vs.Voxels ≠ [] := by
    obtain ⟨p, hp⟩ := List.exists_mem_of_ne_nil _ hw
    have hfin : ∃ l : List Key, ∀ k, W k → k ∈ l := by
      refine ⟨(n0 :: ns).flatMap fun n => ((info n).bv.white.keys ++ (info n).bv.color.keys).map fun k =>
        k.shift ((info n).t.X - m.X) ((info n).t.Y - m.Y) ((info n).t.Z - m.Z), ?_⟩
      rintro k ⟨n, hn, hk⟩
      refine List.mem_flatMap.mpr ⟨n, hn, List.mem_map.mpr
        ⟨⟨k.X + m.X - (info n).t.X, k.Y + m.Y - (info n).t.Y, k.Z + m.Z - (info n).t.Z⟩, ?_, ?_⟩⟩
      · rcases hk with hk | hk
        · exact List.mem_append_left _ ((GoMap.mem_keys_iff _ _).mpr hk)
        · exact List.mem_append_right _ ((GoMap.mem_keys_iff _ _).mpr hk)
      · obtain ⟨x, y, z⟩ := k
        unfold Key.shift
        simp only [Key.mk.injEq]
        omega
    obtain ⟨l, hl⟩ := hfin
    have hkW : W (p.1.shift ((info n0).t.X - m.X) ((info n0).t.Y - m.Y) ((info n0).t.Z - m.Z)) := by
      refine ⟨n0, by simp, ?_⟩
      unfold MFile.world Moved Key.shift
      refine Or.inl ?_
      dsimp only
      have : p.1 ∈ (info n0).bv.white.keys := List.mem_map_of_mem hp
      have := (GoMap.mem_keys_iff _ _).mp this
      convert this using 2
      obtain ⟨⟨x, y, z⟩, u⟩ := p
      simp only [Key.mk.injEq]
      omega
    exact isShell_ne_nil hsh l hl hkW
  obtain ⟨w0, hw0⟩ := List.exists_mem_of_ne_nil _ hne
  have hpos := hin w0 hw0
  obtain ⟨q1, q2, q3, q4, q5, q6⟩ := hpos
  have h := vsh_write_region_read vs hne wholeRegion
  have e : writeRegion vs.NX vs.NY vs.NZ wholeRegion = ⟨0, 0, 0, vs.NX, vs.NY, vs.NZ⟩ := rfl
  simp only [e] at h
  obtain ⟨b', hr, h1, h2, h3, h4, h5, h6, h7, hnd', hv⟩ := h ⟨by omega, x1⟩ ⟨by omega, y1⟩ ⟨by omega, z1⟩ hnl
  have hWr := vsh_Write_ok vs hne wholeRegion ⟨true, [], true⟩ rfl (by simp) rfl
  have hmi : mergeInputs (pre ++ ascii ".vsh") force (n0 :: ns) = some (n0 :: ns) := by
    have hno := mergeBinvox_never_refuses pre (n0 :: ns) hb
    have hnot : pre ++ ascii ".vsh" ∉ n0 :: ns := by
      intro hin
      rw [(mergeInputs_exact _ false _).1.mpr ⟨hin, rfl⟩] at hno
      cases hno
    cases hmi : mergeInputs (pre ++ ascii ".vsh") force (n0 :: ns) with
    | none => exact (hnot ((mergeInputs_exact _ _ _).1.mp hmi).1).elim
    | some l =>
      rw [(mergeInputs_exact _ _ _).2 _ hmi]
      congr 1
      rw [List.filter_eq_self]
      intro f hf
      simp only [decide_eq_true_eq, ne_eq]
      rintro rfl
      exact hnot hf
  refine ⟨(vs.write ⟨[], []⟩ wholeRegion).1.out, b', ?_, ?_, by rw [h4, t1], by rw [h5, t2], by rw [h6, t3], ?_, hnd', ?_⟩
  · have hrun := MergeBinvoxRun.written (d := d) (sch := sch) (pre := pre) (force := force) ⟨true, [], true⟩ hmi hmerge
    have hw' : (⟨0, 0, 0, 0, 0, 0⟩ : Region) = wholeRegion := rfl
    rw [hw', hWr] at hrun
    exact hrun
  · unfold input
    rw [put_self]
    exact hr
  · rw [← hvp']
    unfold VShell.VoxelsPerMM
    rw [h1, h2, h3, h7]
  · intro w
    rw [hv]
    have e0 : w.key.shift 0 0 0 = w.key := by simp [Key.shift]
    rw [e0]
    constructor
    · rintro ⟨hi, hsp, hva⟩
      have hwm := (valueAt_eq_iff vs hsh.1 w (fun h => hsp (Or.inl h))).mp hva
      obtain ⟨p1, p2, p3⟩ := (hsh.2 w).mp hwm
      refine ⟨p1, p2, p3, ?_⟩
      by_contra hc
      exact hsp ((special_iff_isolated p3).mpr hc)
    · rintro ⟨p1, p2, p3, p4⟩
      have hwm := (hsh.2 w).mpr ⟨p1, p2, p3⟩
      have hsp : ¬ Special w.N := fun h => (special_iff_isolated p3).mp h p4
      exact ⟨hin w hwm, hsp, (valueAt_eq_iff vs hsh.1 w (fun h => hsp (Or.inl h))).mpr hwm⟩

/-- A bar of two voxels at x = `t`, for the example. -/
def exBar (t : Int) : BinVOX ℚ :=
  { NX := 2, NY := 1, NZ := 1, TX := t, TY := 0, TZ := 0, Scale := 2,
    WhiteVoxels := some [(⟨0, 0, 0⟩, ()), (⟨1, 0, 0⟩, ())], ColorVoxels := none }

/-- The hypotheses are met: two bars, three voxels apart, on the disk. -/
theorem exMergeBars : ∃ (d : Disk) (sch : Bytes → AddSched) (info : Bytes → MFile) (n0 n1 : Bytes),
    (∀ n ∈ n0 :: [n1], ∃ stem, n = stem ++ ascii ".binvox") ∧
    (∀ n ∈ n0 :: [n1], Holds d n (info n).bv ∧ (info n).sch = sch n) ∧
    0 < (info n0).bv.Scale ∧ OnLattice 0 0 0 1 (info n0) ∧ (info n0).bv.VoxelsPerMM = 1 ∧ (info n0).bv.white ≠ [] ∧
    (info n0).sch.Valid (info n0).bv 0 0 0 ∧
    Mergeable 0 0 0 1 (info n0).t (info n0).world (info n0).sch.ordLookup.length ([n1].map info) := by
  have hfile : ∀ t : Int, ∃ b' : BinVOX ℚ, BinVOX.read ⟨((exBar t).write ⟨[], []⟩ wholeRegion).1.out, true⟩ wholeRegion = some b' ∧
      b'.NX = 2 ∧ b'.NY = 1 ∧ b'.NZ = 1 ∧ b'.TX = t ∧ b'.TY = 0 ∧ b'.TZ = 0 ∧ b'.Scale = 2 ∧ b'.color = [] ∧ GoMap.WF b'.white ∧
      ∀ k, b'.white.has k = true ↔ k = ⟨0, 0, 0⟩ ∨ k = ⟨1, 0, 0⟩ := by
    intro t
    have e : writeRegion (exBar t).NX (exBar t).NY (exBar t).NZ wholeRegion = ⟨0, 0, 0, 2, 1, 1⟩ := rfl
    have h := write_region_read (exBar t) (by simp [exBar, BinVOX.white, mapOf]) wholeRegion
    simp only [e] at h
    obtain ⟨b', h, h1, h2, h3, h4, h5, h6, h7, h8, h9, hv⟩ := h (by decide) (by decide) (by decide)
    refine ⟨b', h, h1, h2, h3, h4, h5, h6, h7, by unfold BinVOX.color mapOf; rw [h8]; rfl, h9, ?_⟩
    intro k
    have := hv k
    unfold Vox at this
    rw [this]
    have hb : (exBar t).white.has (k.shift 0 0 0) = true ↔ k = ⟨0, 0, 0⟩ ∨ k = ⟨1, 0, 0⟩ := by
      rw [← GoMap.mem_keys_iff]
      have : (exBar t).white.keys = [⟨0, 0, 0⟩, ⟨1, 0, 0⟩] := rfl
      rw [this]
      have e0 : k.shift 0 0 0 = k := by simp [Key.shift]
      rw [e0]
      simp
    rw [hb]
    constructor
    · exact fun h => h.2
    · intro h
      refine ⟨?_, h⟩
      rcases h with rfl | rfl <;> (unfold InDims; decide)
  obtain ⟨b0, r0, a1, a2, a3, a4, a5, a6, a7, a8, a9, a10⟩ := hfile 0
  obtain ⟨b1, r1, c1, c2, c3, c4, c5, c6, c7, c8, c9, c10⟩ := hfile 3
  let d : Disk := fun n => if n = ascii "a.binvox" then some ((exBar 0).write ⟨[], []⟩ wholeRegion).1.out else
    if n = ascii "b.binvox" then some ((exBar 3).write ⟨[], []⟩ wholeRegion).1.out else none
  let f0 : MFile := ⟨⟨b0.white.keys, [], [⟨0, 0, 0⟩, ⟨1, 0, 0⟩], 9⟩, b0, ⟨0, 0, 0⟩⟩
  let f1 : MFile := ⟨⟨b1.white.keys, [], [⟨3, 0, 0⟩, ⟨4, 0, 0⟩], 9⟩, b1, ⟨3, 0, 0⟩⟩
  let info : Bytes → MFile := fun n => if n = ascii "a.binvox" then f0 else f1
  have i0 : info (ascii "a.binvox") = f0 := if_pos rfl
  have i1 : info (ascii "b.binvox") = f1 := if_neg (by decide)
  have d0 : d (ascii "a.binvox") = some ((exBar 0).write ⟨[], []⟩ wholeRegion).1.out := if_pos rfl
  have d1 : d (ascii "b.binvox") = some ((exBar 3).write ⟨[], []⟩ wholeRegion).1.out :=
    (if_neg (by decide)).trans (if_pos rfl)
  have occ0 : ∀ k, Occ b0 k ↔ k = ⟨0, 0, 0⟩ ∨ k = ⟨1, 0, 0⟩ := by
    intro k
    unfold Occ
    rw [a8, a10]
    simp [GoMap.has, GoMap.get]
  have occ1 : ∀ k, Occ b1 k ↔ k = ⟨0, 0, 0⟩ ∨ k = ⟨1, 0, 0⟩ := by
    intro k
    unfold Occ
    rw [c8, c10]
    simp [GoMap.has, GoMap.get]
  have vp : ∀ b : BinVOX ℚ, b.NX = 2 → b.NY = 1 → b.NZ = 1 → b.Scale = 2 → b.VoxelsPerMM = 1 := by
    intro b h1 h2 h3 h4
    unfold BinVOX.VoxelsPerMM
    rw [h1, h2, h3, h4]
    decide +kernel
  refine ⟨d, fun n => (info n).sch, info, ascii "a.binvox", ascii "b.binvox", ?_, ?_, ?_, ?_, ?_, ?_, ?_, ?_⟩
  · intro n hn
    simp only [List.mem_cons, List.not_mem_nil, or_false] at hn
    rcases hn with rfl | rfl
    · exact ⟨ascii "a", by decide⟩
    · exact ⟨ascii "b", by decide⟩
  · intro n hn
    simp only [List.mem_cons, List.not_mem_nil, or_false] at hn
    refine ⟨?_, rfl⟩
    rcases hn with rfl | rfl
    · rw [i0]
      refine ⟨?_, by show 0 < b0.NX; omega, by show 0 < b0.NY; omega, by show 0 < b0.NZ; omega⟩
      unfold input
      rw [d0]
      exact r0
    · rw [i1]
      refine ⟨?_, by show 0 < b1.NX; omega, by show 0 < b1.NY; omega, by show 0 < b1.NZ; omega⟩
      unfold input
      rw [d1]
      exact r1
  · rw [i0]
    show 0 < b0.Scale
    rw [a7]
    norm_num
  · rw [i0]
    refine ⟨?_, ?_, ?_⟩
    · show b0.TX = _; rw [a4]; simp [f0]
    · show b0.TY = _; rw [a5]; simp [f0]
    · show b0.TZ = _; rw [a6]; simp [f0]
  · rw [i0]
    exact vp b0 a1 a2 a3 a7
  · rw [i0]
    intro h
    have := (a10 ⟨0, 0, 0⟩).mpr (Or.inl rfl)
    rw [show b0.white = [] from h] at this
    cases this
  · rw [i0]
    refine ⟨List.Perm.refl _, by rw [show f0.bv.color = [] from a8]; exact List.Perm.refl _,
      by show [(⟨0, 0, 0⟩ : Key), ⟨1, 0, 0⟩].Nodup; decide, ?_⟩
    intro k
    show k ∈ [(⟨0, 0, 0⟩ : Key), ⟨1, 0, 0⟩] ↔ ∃ j, Occ b0 j ∧ k = j.shift 0 0 0
    simp only [occ0, List.mem_cons, List.not_mem_nil, or_false]
    constructor
    · intro h; exact ⟨k, h, by simp [Key.shift]⟩
    · rintro ⟨j, h, rfl⟩
      rcases h with rfl | rfl <;> simp [Key.shift]
  · rw [List.map_cons, List.map_nil, i0, i1]
    have hnm : newMove ⟨3 - 0, 0 - 0, 0 - 0⟩ = ⟨3, 0, 0⟩ := by decide
    refine ⟨⟨?_, ?_, ?_⟩, vp b1 c1 c2 c3 c7, Or.inl (by show KLe ⟨0, 0, 0⟩ ⟨3, 0, 0⟩; decide), ?_, ?_, by show 2 + 2 ≤ 9; decide, trivial⟩
    · show b1.TX = _; rw [c4]; simp [f1]
    · show b1.TY = _; rw [c5]; simp [f1]
    · show b1.TZ = _; rw [c6]; simp [f1]
    · intro k h1 h2
      have h1 : Occ b1 ⟨k.X - 3, k.Y - 0, k.Z - 0⟩ := h1
      have h2 : Occ b0 ⟨k.X - 0, k.Y - 0, k.Z - 0⟩ := h2
      rw [occ1] at h1
      rw [occ0] at h2
      simp only [Key.mk.injEq] at h1 h2
      omega
    · show (AddSched.mk _ _ _ _).Valid b1 (newMove ⟨3 - 0, 0 - 0, 0 - 0⟩).X (newMove ⟨3 - 0, 0 - 0, 0 - 0⟩).Y (newMove ⟨3 - 0, 0 - 0, 0 - 0⟩).Z
      rw [hnm]
      refine ⟨List.Perm.refl _, by rw [c8]; exact List.Perm.refl _,
        by show [(⟨3, 0, 0⟩ : Key), ⟨4, 0, 0⟩].Nodup; decide, ?_⟩
      intro k
      show k ∈ [(⟨3, 0, 0⟩ : Key), ⟨4, 0, 0⟩] ↔ ∃ j, Occ b1 j ∧ k = j.shift 3 0 0
      simp only [occ1, List.mem_cons, List.not_mem_nil, or_false]
      constructor
      · rintro (rfl | rfl)
        · exact ⟨⟨0, 0, 0⟩, Or.inl rfl, by decide⟩
        · exact ⟨⟨1, 0, 0⟩, Or.inr rfl, by decide⟩
      · rintro ⟨j, h, rfl⟩
        rcases h with rfl | rfl <;> simp [Key.shift]

/-- `special_iff_isolated`: a voxel with no neighbours, and one with a neighbour in x. -/
example : ¬ ∃ x y z : Int, IsOffset x y z ∧ (fun k : Key => k = ⟨0, 0, 0⟩) ((⟨0, 0, 0⟩ : Key).shift x y z) := by
  refine (special_iff_isolated (N := 0) (S := fun k : Key => k = ⟨0, 0, 0⟩) ?_).mp (.inl rfl)
  intro i
  constructor
  · intro h
    rw [show (0 : NeighborBitMap) = 0#32 from rfl, BitVec.getLsbD_zero] at h
    cases h
  · rintro ⟨x, y, z, ho, -, h⟩
    unfold IsOffset at ho
    simp only [Key.shift, Key.mk.injEq] at h
    omega

/-- `merge_binvox_file` on the two bars. -/
example : ∃ (d : Disk) (sch : Bytes → AddSched) (n0 n1 : Bytes) (vs : VShell ℚ),
    VShell.Merge ([n0, n1].map fun f => (sch f, BinVOX.Read (F := ℚ) (input d f) wholeRegion)) = some (some vs) := by
  obtain ⟨d, sch, info, n0, n1, h1, h2, h3, h4, h5, h6, h7, h8⟩ := exMergeBars
  obtain ⟨vs, m, h, -⟩ := merge_binvox_file (pre := ascii "o") (force := false) 0 0 0 1 (by norm_num) n0 [n1] info h1 h2 h3 h4 h5 h6 h7 h8
  exact ⟨d, sch, n0, n1, vs, h⟩

/-- `merge_binvox_touches` when a file cannot be read. -/
example (d : Disk) (hd : d (ascii "a.binvox") = none) (sch : Bytes → AddSched) (d' : Disk) (e : Exit)
    (h : MergeBinvoxRun (F := ℚ) d sch (ascii "o") false [ascii "a.binvox"] d' e) : d' = d ∧ e = .fatal := by
  refine (merge_binvox_touches h).2 ⟨_, List.mem_singleton.mpr rfl, by decide, ?_⟩
  unfold input
  rw [hd]
  rfl

/-- `merge_binvox_nothing`: without any file the program panics after emptying its output. -/
example : ∃ d' : Disk, MergeBinvoxRun (F := ℚ) (fun _ => none) (fun _ => ⟨[], [], [], 0⟩) (ascii "o") false [] d' .panic ∧
    d' = put (fun _ => none) (ascii "o" ++ ascii ".vsh") [] ∧ ∀ r, VShell.Read (F := ℚ) (input d' (ascii "o" ++ ascii ".vsh")) r = none := by
  have h : MergeBinvoxRun (F := ℚ) (fun _ => none) (fun _ => ⟨[], [], [], 0⟩) (ascii "o") false []
      (if true then put (fun _ => none) (ascii "o" ++ ascii ".vsh") [] else fun _ => none) (if true then .panic else .fatal) :=
    .nilShell (files := []) true (by decide) rfl
  rw [if_pos rfl, if_pos rfl] at h
  have := (merge_binvox_nothing h (by nofun)).1 rfl
  exact ⟨_, h, this.2.1, this.2.2⟩

/-- `merge_binvox_done` on the two bars, when the file can be written. -/
example : ∃ (d d' : Disk) (sch : Bytes → AddSched) (n0 n1 : Bytes) (vs : VShell ℚ) (env : FileEnv) (c : Bytes),
    MergeBinvoxRun (F := ℚ) d sch (ascii "o") false [n0, n1] d' .done ∧ vs.Write env wholeRegion = (some c, true) ∧ d' = put d (ascii "o" ++ ascii ".vsh") c := by
  obtain ⟨d, sch, info, n0, n1, h1, h2, h3, h4, h5, h6, h7, h8⟩ := exMergeBars
  obtain ⟨vs, m, h, -⟩ := merge_binvox_file (pre := ascii "o") (force := false) 0 0 0 1 (by norm_num) n0 [n1] info h1 h2 h3 h4 h5 h6 h7 h8
  have hw : (vs.Write ⟨true, [], true⟩ wholeRegion).2 = true := by
    by_cases he : vs.Voxels = []
    · exact (vsh_write_reports_empty vs he _ _).mpr ⟨rfl, rfl⟩
    · exact (vsh_write_reports_iff vs he _ _).mpr ⟨rfl, rfl, fun i _ k => by simp⟩
  obtain ⟨st0, e0⟩ := h1 n0 (by simp)
  obtain ⟨st1, e1⟩ := h1 n1 (by simp)
  have hne : ∀ stem : Bytes, stem ++ ascii ".binvox" ≠ ascii "o" ++ ascii ".vsh" := by
    intro stem e
    have := congrArg List.getLast? e
    rw [List.getLast?_append] at this
    exact absurd (show some (120 : UInt8) = some 104 from this) (by decide)
  have hin : mergeInputs (ascii "o" ++ ascii ".vsh") false [n0, n1] = some [n0, n1] := by
    unfold mergeInputs mergeInputs mergeInputs
    rw [if_pos (e0 ▸ hne st0), if_pos (e1 ▸ hne st1)]
    rfl
  have hrun := MergeBinvoxRun.written (F := ℚ) (d := d) (sch := sch) ⟨true, [], true⟩ hin h
  rw [show (vs.Write ⟨true, [], true⟩ ⟨0, 0, 0, 0, 0, 0⟩).2 = true from hw, if_pos rfl] at hrun
  obtain ⟨vs', env, c, -, hc, hd⟩ := merge_binvox_done hrun
  exact ⟨d, _, sch, n0, n1, vs', env, c, hrun, hc, hd⟩

end Cmd
end StlDice
