import Verif.Props.CutDiceLoop
import Verif.Props.VoxcutOut
import Verif.Props.DiceFiles

/-! # C79: voxcut-dice from its command line to the tile files -/

namespace StlDice
namespace Spec
open BinVOX
variable {F : Type}

/-- What should be left at `k`: a voxel of the base and of none of the cuts. -/
def CutLeft (bw : BinVOX F) (cuts : List Bytes) (whole : Bytes → BinVOX F) (k : Key) : Prop :=
  Vox bw k ∧ ∀ c ∈ cuts, ¬ Vox (whole c) k

/-- Nothing is left in the tile (with one more layer), and some cut has voxels' places in it at all: it
    reaches as far as the tile's lower corner. -/
def NothingLeft (bw : BinVOX F) (cuts : List Bytes) (whole : Bytes → BinVOX F) (size : Int) (t : Key) : Prop :=
  (∃ c ∈ cuts, t.X ≤ (whole c).NX ∧ t.Y ≤ (whole c).NY ∧ t.Z ≤ (whole c).NZ) ∧
  ∀ k, InTilePlus size t k → ¬ CutLeft bw cuts whole k

/-- The files of tile `t` are complete: they show the model `b` whose voxels are those left in `[t, t+size]`,
    with the position and resolution of the base; the binvox file, if no system call failed, holds those
    left in `[t, t+size)`, moved to the origin. -/
def TileDone [GoFloat F] [FloatText F] (lib : Cmd.GL F) (d : Cmd.Disk) (fl : CutDiceFlags) (bw : BinVOX F) (cuts : List Bytes)
    (whole : Bytes → BinVOX F) (t : Key) : Prop :=
  ∃ b : BinVOX F,
    (b.NX = bw.NX ∧ b.NY = bw.NY ∧ b.NZ = bw.NZ ∧ b.TX = bw.TX ∧ b.TY = bw.TY ∧ b.TZ = bw.TZ ∧ b.Scale = bw.Scale ∧
      WhiteOnly b) ∧
    (∀ k, Vox b k ↔ CutLeft bw cuts whole k ∧ InTilePlus fl.size t k) ∧
    (fl.stlPrefix ≠ [] → ∃ tris, Cmd.ToMeshRun lib b tris ∧
      d (cutOut fl.stlPrefix ".stl" fl.size t) = some (lib.stl tris)) ∧
    (fl.voxPrefix ≠ [] → ∃ m, m.Perm b.white ∧ d (cutOut fl.voxPrefix ".vox" fl.size t) = some (Cmd.voxBytes m)) ∧
    (fl.binvoxPrefix ≠ [] → ∃ env c, b.Write env ⟨t.X, t.Y, t.Z, fl.size, fl.size, fl.size⟩ = (some c, true) ∧
      d (cutOut fl.binvoxPrefix ".binvox" fl.size t) = some c ∧
      (GoodEnv env → ∃ b' : BinVOX F, BinVOX.read ⟨c, true⟩ wholeRegion = some b' ∧
        ∀ k, Vox b' k ↔ InDims fl.size fl.size fl.size k ∧ CutLeft bw cuts whole (k.shift t.X t.Y t.Z)))

end Spec

namespace Cmd
open Spec BinVOX
variable {F : Type}

/-! ## Names -/

theorem cutOut_eq {pre : Bytes} (ext : String) (size : Int) (t : Key) (h : pre ≠ []) :
    cutOut pre ext size t = dashed [pre, padInt 4 t.X, padInt 4 t.Y, padInt 4 t.Z, padInt 4 size, padInt 4 size, padInt 4 size] ++ ascii ext := by
  unfold cutOut
  rw [if_neg h]

theorem cutOut_ne_nil {pre : Bytes} (ext : String) (size : Int) (t : Key) (h : pre ≠ []) : cutOut pre ext size t ≠ [] := by
  rw [cutOut_eq _ _ _ h]
  unfold dashed
  simp [List.intersperse, h]

theorem cutOut_last {pre : Bytes} (ext : String) (size : Int) (t : Key) (h : pre ≠ []) (hs : 0 ≤ size) :
    ∃ body d, isDigit d = true ∧ cutOut pre ext size t = body ++ d :: ascii ext := by
  rw [cutOut_eq _ _ _ h]
  have hne : padInt 4 size ≠ [] := by
    unfold padInt
    intro e
    rw [List.append_eq_nil_iff] at e
    rw [fmtInt_nonneg hs] at e
    exact fmtNat_ne_nil _ e.2
  obtain ⟨l, a, e⟩ : ∃ l a, padInt 4 size = l ++ [a] := ⟨_, _, (List.dropLast_append_getLast hne).symm⟩
  refine ⟨dashed [pre, padInt 4 t.X, padInt 4 t.Y, padInt 4 t.Z, padInt 4 size, padInt 4 size] ++ 45 :: l, a,
    padInt_digits 4 hs a (by rw [e]; simp), ?_⟩
  have e2 : dashed [pre, padInt 4 t.X, padInt 4 t.Y, padInt 4 t.Z, padInt 4 size, padInt 4 size, padInt 4 size] =
      dashed [pre, padInt 4 t.X, padInt 4 t.Y, padInt 4 t.Z, padInt 4 size, padInt 4 size] ++ 45 :: padInt 4 size := by
    unfold dashed
    simp [List.intersperse]
  rw [e2]
  generalize dashed [pre, padInt 4 t.X, padInt 4 t.Y, padInt 4 t.Z, padInt 4 size, padInt 4 size] = B
  rw [e]
  simp

theorem suffix_clash {a b : Bytes} {c c' : UInt8} {e e' : Bytes} (h : a ++ c :: e = b ++ c' :: e') (hl : e.length = e'.length) : c = c' := by
  have h := congrArg List.reverse h
  simp only [List.reverse_append, List.reverse_cons, List.append_assoc, List.singleton_append] at h
  have hl : e.reverse.length = e'.reverse.length := by simpa using hl
  have := (List.append_inj h hl).2
  injection this

/-- Names with different endings differ. -/
theorem cutOut_ext {pre pre' : Bytes} {size size' : Int} {t t' : Key} (hs : 0 ≤ size) (hs' : 0 ≤ size') {e e' : String}
    (h : pre ≠ []) (hee : (ascii e).length ≤ (ascii e').length) (hne : ∀ body d, isDigit d = true → body ++ d :: ascii e ≠ ascii e')
    (hne2 : ascii e ≠ ascii e')  (h' : pre' ≠ []) : cutOut pre e size t ≠ cutOut pre' e' size' t' := by
  obtain ⟨b, d, hd, e1⟩ := cutOut_last e size t h hs
  obtain ⟨b', d', hd', e2⟩ := cutOut_last e' size' t' h' hs'
  rw [e1, e2]
  intro he
  have h1 : (d :: ascii e) <:+ (b' ++ d' :: ascii e') := by rw [← he]; exact List.suffix_append _ _
  have h2 : (ascii e') <:+ (b' ++ d' :: ascii e') := ⟨b' ++ [d'], by simp⟩
  by_cases hl : (ascii e).length = (ascii e').length
  · have := List.append_inj' (s₁ := b ++ [d]) (s₂ := b' ++ [d']) (t₁ := ascii e) (t₂ := ascii e') (by simpa using he) hl
    exact hne2 this.2
  · obtain ⟨x, hx⟩ := List.suffix_of_suffix_length_le h1 h2 (by simp; omega)
    exact hne x d hd hx

theorem stl_ne_vox {pre pre' : Bytes} {size : Int} {t t' : Key} (hs : 0 ≤ size) (h : pre ≠ []) (h' : pre' ≠ []) :
    cutOut pre ".stl" size t ≠ cutOut pre' ".vox" size t' := by
  refine cutOut_ext hs hs h (by decide) ?_ (by decide) h'
  intro body d hd e
  have := congrArg List.length e
  have l1 : (ascii ".stl").length = 4 := by decide
  have l2 : (ascii ".vox").length = 4 := by decide
  simp [l1, l2] at this

theorem stl_ne_binvox {pre pre' : Bytes} {size : Int} {t t' : Key} (hs : 0 ≤ size) (h : pre ≠ []) (h' : pre' ≠ []) :
    cutOut pre ".stl" size t ≠ cutOut pre' ".binvox" size t' := by
  refine cutOut_ext hs hs h (by decide) ?_ (by decide) h'
  intro body d hd e
  have e2 : ascii ".binvox" = (ascii ".b") ++ 105 :: ascii "nvox" := by decide
  have e3 : ascii ".binvox" = (ascii ".bin") ++ 118 :: [111, 120] := by decide
  have e4 : ascii ".stl" = 46 :: 115 :: [116, 108] := by decide
  have : (body ++ [d, 46]) ++ 115 :: [116, 108] = ascii ".bin" ++ 118 :: [111, 120] := by rw [← e3, ← e, e4]; simp
  have := suffix_clash this rfl
  revert this; decide

theorem vox_ne_binvox {pre pre' : Bytes} {size : Int} {t t' : Key} (hs : 0 ≤ size) (h : pre ≠ []) (h' : pre' ≠ []) :
    cutOut pre ".vox" size t ≠ cutOut pre' ".binvox" size t' := by
  refine cutOut_ext hs hs h (by decide) ?_ (by decide) h'
  intro body d hd e
  have e3 : ascii ".binvox" = (ascii ".bi") ++ 110 :: [118, 111, 120] := by decide
  have e4 : ascii ".vox" = 46 :: [118, 111, 120] := by decide
  have : (body ++ [d]) ++ 46 :: [118, 111, 120] = ascii ".bi" ++ 110 :: [118, 111, 120] := by rw [← e3, ← e, e4]; simp
  have := suffix_clash this rfl
  revert this; decide

theorem cutOut_inj {pre : Bytes} {ext : String} {size : Int} {t t' : Key} (h : pre ≠ []) (ht : 0 ≤ t.X ∧ 0 ≤ t.Y ∧ 0 ≤ t.Z)
    (ht' : 0 ≤ t'.X ∧ 0 ≤ t'.Y ∧ 0 ≤ t'.Z) (he : cutOut pre ext size t = cutOut pre ext size t') : t = t' := by
  rw [← cutName_spec ext size t h, ← cutName_spec ext size t' h] at he
  exact cut_names_distinct pre (ascii ext) size t t' ht ht' he

/-- The files of different tiles are different. -/
theorem cutOuts_disjoint {fl : CutDiceFlags} (hs : 0 ≤ fl.size) {t t' : Key} (ht : 0 ≤ t.X ∧ 0 ≤ t.Y ∧ 0 ≤ t.Z)
    (ht' : 0 ≤ t'.X ∧ 0 ≤ t'.Y ∧ 0 ≤ t'.Z) (hne : t ≠ t') {n : Bytes} (hn : n ≠ []) (h : n ∈ cutOuts fl t) : n ∉ cutOuts fl t' := by
  unfold cutOuts at h ⊢
  have key : ∀ pre (e : String), cutOut pre e fl.size t ≠ [] → pre ≠ [] := by
    intro pre e h1 h2
    unfold cutOut at h1
    rw [if_pos h2] at h1
    exact h1 rfl
  have key' : ∀ pre (e : String), cutOut pre e fl.size t' ≠ [] → pre ≠ [] := by
    intro pre e h1 h2
    unfold cutOut at h1
    rw [if_pos h2] at h1
    exact h1 rfl
  simp only [List.mem_cons, List.not_mem_nil, or_false] at h ⊢
  rintro (h' | h' | h') <;> rcases h with h | h | h <;>
    (have n1 := key _ _ (h ▸ hn); have n2 := key' _ _ (h' ▸ hn); have e := h.symm.trans h')
  · exact hne (cutOut_inj n1 ht ht' e)
  · exact stl_ne_binvox hs n1 n2 e
  · exact vox_ne_binvox hs n1 n2 e
  · exact stl_ne_binvox hs n2 n1 e.symm
  · exact hne (cutOut_inj n1 ht ht' e)
  · exact stl_ne_vox hs n2 n1 e.symm
  · exact vox_ne_binvox hs n2 n1 e.symm
  · exact stl_ne_vox hs n1 n2 e
  · exact hne (cutOut_inj n1 ht ht' e)

/-! ## One tile -/

/-- Files that a model is read from: it does not change when none of them does. -/
theorem cutModel_congr [GoFloat F] [FloatText F] {d d' : Disk} {fl : CutFlags} (h : ∀ f ∈ fl.files, d' f = d f) :
    cutModel (F := F) d' fl = cutModel (F := F) d fl := by
  unfold cutModel
  cases hf : fl.files with
  | nil => rfl
  | cons base cuts =>
    rw [hf] at h
    have e : ∀ f ∈ base :: cuts, input d' f = input d f := fun f hf => by unfold input; rw [h f hf]
    dsimp only
    rw [e base (by simp), List.map_congr_left fun f hf => by rw [e f (by simp [hf])]]

theorem inTilePlus_iff {nx ny nz size : Int} {t k : Key} (hk : InDims nx ny nz k) (hs : 1 ≤ size) (ht : 0 ≤ t.X ∧ 0 ≤ t.Y ∧ 0 ≤ t.Z) :
    InClosed ⟨t.X, t.Y, t.Z, clampCount size nx, clampCount size ny, clampCount size nz⟩ k ↔ InTilePlus size t k := by
  obtain ⟨a1, a2, a3, a4, a5, a6⟩ := hk
  unfold InClosed InTilePlus clampCount
  dsimp only
  have key : ∀ n s x : Int, 0 ≤ s → x < n → (x ≤ s + (if size = 0 ∨ size > n then n else size) ↔ x ≤ s + size) := by
    intro n s x h0 h1
    split <;> omega
  rw [key _ _ _ ht.1 a2, key _ _ _ ht.2.1 a4, key _ _ _ ht.2.2 a6]
  tauto

/-- A write in which no system call fails. -/
theorem write_good_region [FloatText F] (b : BinVOX F) (r : Region) {env : FileEnv} (h : GoodEnv env) :
    b.Write env r = (some (b.write ⟨[], []⟩ r).1.out, true) := by
  obtain ⟨c, plan, cl⟩ := env
  obtain ⟨h1, h2, h3⟩ := h
  dsimp only at h1 h2 h3
  subst h1
  subst h2
  unfold BinVOX.Write BinVOX.write
  dsimp only
  by_cases h0 : b.white.length = 0
  · rw [if_pos h0, if_pos h0]
    rcases plan with _ | ⟨o, p⟩
    · rfl
    · rw [h3 o (by simp)]; rfl
  · rw [if_neg h0, if_neg h0]
    rcases plan with _ | ⟨o, _ | ⟨o2, p⟩⟩
    · rfl
    · rw [h3 o (by simp)]; rfl
    · rw [h3 o (by simp), h3 o2 (by simp)]; rfl

section Tiles
variable [GoFloat F] [FloatText F] {d : Disk} {fl : CutDiceFlags} {base : Bytes} {cuts : List Bytes} {bw : BinVOX F}
  {whole : Bytes → BinVOX F}

/-- A job as it is meant: the files can be read, the size is positive, the loops over the
    tiles stay within the 64-bit integers, an output is asked for, no output is
    one of the files. -/
structure CutJob (d : Disk) (fl : CutDiceFlags) (base : Bytes) (cuts : List Bytes) (bw : BinVOX F) (whole : Bytes → BinVOX F) : Prop where
  files : fl.files = base :: cuts
  holds : Holds d base bw
  holdsCuts : ∀ c ∈ cuts, Holds d c (whole c)
  dims : bw.NX ≤ maxInt ∧ bw.NY ≤ maxInt ∧ bw.NZ ≤ maxInt
  size : 1 ≤ fl.size ∧ fl.size ≤ maxInt
  fits : TilesFit bw.NX bw.NY bw.NZ fl.size
  outs : ¬ (fl.binvoxPrefix = [] ∧ fl.stlPrefix = [] ∧ fl.voxPrefix = [])
  name : Flag.NotFlag base
  noClash : ∀ f ∈ fl.files, ∀ t, IsTile bw.NX bw.NY bw.NZ fl.size t → f ∉ cutOuts fl t

theorem tile_nonneg {nx ny nz size : Int} {t : Key} (h : IsTile nx ny nz size t) : 0 ≤ t.X ∧ 0 ≤ t.Y ∧ 0 ≤ t.Z := by
  obtain ⟨⟨h1, _, h2, _, h3, _⟩, _⟩ := h
  exact ⟨h1, h2, h3⟩

theorem cutOut_nil_iff (pre : Bytes) (ext : String) (size : Int) (t : Key) : cutOut pre ext size t = [] ↔ pre = [] := by
  constructor
  · intro h
    by_contra hp
    exact cutOut_ne_nil ext size t hp h
  · intro h; unfold cutOut; rw [if_pos h]

theorem job_regionNonneg (J : CutJob d fl base cuts bw whole) {t : Key} (ht : IsTile bw.NX bw.NY bw.NZ fl.size t) :
    0 ≤ t.X ∧ 0 ≤ t.Y ∧ 0 ≤ t.Z ∧ 0 ≤ fl.size ∧ 0 ≤ fl.size ∧ 0 ≤ fl.size := by
  obtain ⟨h1, h2, h3⟩ := tile_nonneg ht
  have := J.size.1
  exact ⟨h1, h2, h3, by omega, by omega, by omega⟩

/-- The model of a tile. -/
theorem job_model (hF : WhiteCancels F) (J : CutJob d fl base cuts bw whole) {t : Key} (ht : IsTile bw.NX bw.NY bw.NZ fl.size t)
    {b : BinVOX F} (hb : cutModel (F := F) d (tileFlags fl t) = some b) :
    (b.NX = bw.NX ∧ b.NY = bw.NY ∧ b.NZ = bw.NZ ∧ b.TX = bw.TX ∧ b.TY = bw.TY ∧ b.TZ = bw.TZ ∧ b.Scale = bw.Scale ∧
      WhiteOnly b) ∧
    ∀ k, Vox b k ↔ CutLeft bw cuts whole k ∧ InTilePlus fl.size t k := by
  obtain ⟨h1, h2⟩ := cutModel_exact hF (fl := tileFlags fl t) J.files J.holds J.holdsCuts (job_regionNonneg J ht) hb
  refine ⟨h1, fun k => (h2 k).trans ?_⟩
  obtain ⟨inp, -, hr⟩ := holds_input J.holds
  obtain ⟨-, hx, hy, hz⟩ := J.holds
  unfold CutLeft
  constructor
  · rintro ⟨h1, h2, h3⟩
    exact ⟨⟨h1, h3⟩, (inTilePlus_iff (read_vox_inDims inp bw hr hx hy hz k h1) J.size.1 (tile_nonneg ht)).mp h2⟩
  · rintro ⟨⟨h1, h3⟩, h2⟩
    exact ⟨h1, (inTilePlus_iff (read_vox_inDims inp bw hr hx hy hz k h1) J.size.1 (tile_nonneg ht)).mpr h2, h3⟩

/-- voxcut gives up on a tile exactly when nothing is left in it. -/
theorem job_none_iff (hF : WhiteCancels F) (J : CutJob d fl base cuts bw whole) {t : Key} (ht : IsTile bw.NX bw.NY bw.NZ fl.size t) :
    cutModel (F := F) d (tileFlags fl t) = none ↔ NothingLeft bw cuts whole fl.size t := by
  obtain ⟨inp, hi, hr⟩ := holds_input J.holds
  obtain ⟨-, hx, hy, hz⟩ := J.holds
  have hn := job_regionNonneg J ht
  have h0 : ¬ ((tileFlags fl t).obinvox = [] ∧ (tileFlags fl t).ostl = [] ∧ (tileFlags fl t).ovox = []) := by
    unfold tileFlags
    dsimp only
    rw [cutOut_nil_iff, cutOut_nil_iff, cutOut_nil_iff]
    exact J.outs
  have hf : (tileFlags fl t).files = base :: cuts := J.files
  have key : cutModel (F := F) d (tileFlags fl t) = match BinVOX.read (F := F) inp (tileFlags fl t).region with
      | none => none
      | some b => voxcutLoop b (cuts.map fun f => BinVOX.Read (F := F) (input d f) (tileFlags fl t).region) := by
    unfold cutModel
    rw [hf]
    dsimp only
    rw [if_neg h0, hi]
    rfl
  rcases read_region_cases inp (tileFlags fl t).region bw hr hn hx hy hz with ⟨hs, base', hbase, hbwo, hh, hbv⟩ | ⟨hout, _⟩
  swap
  · exfalso
    apply hout
    obtain ⟨⟨a1, a2, a3, a4, a5, a6⟩, _⟩ := ht
    unfold tileFlags
    dsimp only
    omega
  rw [key, hbase]
  dsimp only
  generalize hcl : (cuts.map fun f => BinVOX.Read (F := F) (input d f) (tileFlags fl t).region) = cl
  -- what each cut contributes
  have cutCases : ∀ c ∈ cuts,
      ((t.X ≤ (whole c).NX ∧ t.Y ≤ (whole c).NY ∧ t.Z ≤ (whole c).NZ) ∧ ∃ m, BinVOX.Read (F := F) (input d c) (tileFlags fl t).region = some m ∧
        WhiteOnly m ∧ ∀ k, Vox m k ↔ Vox (whole c) k ∧ InTilePlus fl.size t k) ∨
      (¬ (t.X ≤ (whole c).NX ∧ t.Y ≤ (whole c).NY ∧ t.Z ≤ (whole c).NZ) ∧ BinVOX.Read (F := F) (input d c) (tileFlags fl t).region = none) := by
    intro c hc
    obtain ⟨ic, hic, hrc⟩ := holds_input (J.holdsCuts c hc)
    obtain ⟨-, px, py, pz⟩ := J.holdsCuts c hc
    rw [hic]
    rcases read_region_cases ic (tileFlags fl t).region (whole c) hrc hn px py pz with ⟨h1, m, hm, hmw, _, hmv⟩ | ⟨h1, h2⟩
    · refine Or.inl ⟨h1, m, hm, hmw, fun k => (hmv k).trans ?_⟩
      constructor
      · rintro ⟨hv, hk⟩
        exact ⟨hv, (inTilePlus_iff (read_vox_inDims ic _ hrc px py pz k hv) J.size.1 (tile_nonneg ht)).mp hk⟩
      · rintro ⟨hv, hk⟩
        exact ⟨hv, (inTilePlus_iff (read_vox_inDims ic _ hrc px py pz k hv) J.size.1 (tile_nonneg ht)).mpr hk⟩
    · exact Or.inr ⟨h1, h2⟩
  have hclw : ∀ m, some m ∈ cl → WhiteOnly m := by
    intro m hm
    rw [← hcl] at hm
    obtain ⟨c, hc, e⟩ := List.mem_map.mp hm
    rcases cutCases c hc with ⟨_, m', h1, h2, _⟩ | ⟨_, h1⟩
    · rw [h1] at e; injection e with e; rw [← e]; exact h2
    · rw [h1] at e; cases e
  obtain ⟨hiff, -⟩ := voxcutLoop_exact hF cl base' hbwo hclw
  have hbase' : ∀ k, Vox base' k ↔ Vox bw k ∧ InTilePlus fl.size t k := by
    intro k
    refine (hbv k).trans ?_
    constructor
    · rintro ⟨hv, hk⟩
      exact ⟨hv, (inTilePlus_iff (read_vox_inDims inp bw hr hx hy hz k hv) J.size.1 (tile_nonneg ht)).mp hk⟩
    · rintro ⟨hv, hk⟩
      exact ⟨hv, (inTilePlus_iff (read_vox_inDims inp bw hr hx hy hz k hv) J.size.1 (tile_nonneg ht)).mpr hk⟩
  have hnone : voxcutLoop base' cl = none ↔ ¬ ∃ b, voxcutLoop base' cl = some b := by
    cases voxcutLoop base' cl <;> simp
  rw [hnone, hiff]
  unfold NothingLeft
  push Not
  refine and_congr ?_ ?_
  · constructor
    · rintro ⟨m, hm, hne⟩
      rw [← hcl] at hm
      obtain ⟨c, hc, e⟩ := List.mem_map.mp hm
      rcases cutCases c hc with ⟨h1, _⟩ | ⟨_, h1⟩
      · exact ⟨c, hc, h1⟩
      · rw [h1] at e; exact absurd e.symm hne
    · rintro ⟨c, hc, h1⟩
      rcases cutCases c hc with ⟨_, m, h2, _⟩ | ⟨h2, _⟩
      · exact ⟨some m, by rw [← hcl]; exact List.mem_map.mpr ⟨c, hc, h2⟩, fun h => nomatch h⟩
      · exact absurd h1 h2
  · constructor
    · rintro h k hk ⟨hv, hno⟩
      obtain ⟨m, hm, hmv⟩ := h k ((hbase' k).mpr ⟨hv, hk⟩)
      rw [← hcl] at hm
      obtain ⟨c, hc, e⟩ := List.mem_map.mp hm
      rcases cutCases c hc with ⟨_, m', h2, _, h3⟩ | ⟨_, h2⟩
      · rw [h2] at e
        injection e with e
        subst e
        exact hno c hc ((h3 k).mp hmv).1
      · rw [h2] at e; cases e
    · intro h k hk
      obtain ⟨hv, hk⟩ := (hbase' k).mp hk
      have := h k hk
      unfold CutLeft at this
      push Not at this
      obtain ⟨c, hc, hcv⟩ := this hv
      obtain ⟨ic, hic, hrc⟩ := holds_input (J.holdsCuts c hc)
      obtain ⟨-, px, py, pz⟩ := J.holdsCuts c hc
      have hin := read_vox_inDims ic _ hrc px py pz k hcv
      rcases cutCases c hc with ⟨_, m, h2, _, h3⟩ | ⟨h2, _⟩
      · exact ⟨m, by rw [← hcl]; exact List.mem_map.mpr ⟨c, hc, h2⟩, (h3 k).mpr ⟨hcv, hk⟩⟩
      · exfalso
        apply h2
        obtain ⟨a1, a2, a3, a4, a5, a6⟩ := hin
        obtain ⟨⟨b1, _⟩, ⟨b2, _⟩, ⟨b3, _⟩⟩ := hk
        omega

/-- The binvox file of a tile, if no system call failed. -/
theorem job_binvox [LawfulFloatText F] (hF : WhiteCancels F) (J : CutJob d fl base cuts bw whole) {t : Key}
    (ht : IsTile bw.NX bw.NY bw.NZ fl.size t) {b : BinVOX F} (hb : cutModel (F := F) d (tileFlags fl t) = some b) :
    ∃ b' : BinVOX F, BinVOX.read ⟨(b.write ⟨[], []⟩ (tileFlags fl t).region).1.out, true⟩ wholeRegion = some b' ∧
      ∀ k, Vox b' k ↔ InDims fl.size fl.size fl.size k ∧ CutLeft bw cuts whole (k.shift t.X t.Y t.Z) := by
  obtain ⟨inp, hi, hr⟩ := holds_input J.holds
  obtain ⟨-, hx, hy, hz⟩ := J.holds
  have hc : ∀ c, ∃ ic, c ∈ cuts → input d c = some ic ∧ BinVOX.read ic wholeRegion = some (whole c) := by
    intro c
    by_cases hc : c ∈ cuts
    · obtain ⟨ic, h1, h2⟩ := holds_input (J.holdsCuts c hc)
      exact ⟨ic, fun _ => ⟨h1, h2⟩⟩
    · exact ⟨⟨[], true⟩, fun h => absurd h hc⟩
  choose ic hic using hc
  have hmain : voxcutMain (F := F) inp ((cuts.map fun c => (ic c, whole c)).map (·.1)) (tileFlags fl t).region ⟨[], []⟩ =
      some (b.write ⟨[], []⟩ (tileFlags fl t).region).1 := by
    unfold cutModel at hb
    have hf : (tileFlags fl t).files = base :: cuts := J.files
    rw [hf] at hb
    dsimp only at hb
    split at hb
    · cases hb
    rw [hi] at hb
    have e : (cuts.map fun f => BinVOX.Read (F := F) (input d f) (tileFlags fl t).region) =
        ((cuts.map fun c => (ic c, whole c)).map (·.1)).map fun f => BinVOX.read (F := F) f (tileFlags fl t).region := by
      rw [List.map_map, List.map_map]
      refine List.map_congr_left fun c hc => ?_
      rw [(hic c hc).1]
      rfl
    rw [e] at hb
    have hRead : BinVOX.Read (F := F) (some inp) (tileFlags fl t).region = BinVOX.read inp (tileFlags fl t).region := rfl
    rw [hRead] at hb
    unfold voxcutMain
    cases hrd : BinVOX.read (F := F) inp (tileFlags fl t).region with
    | none => rw [hrd] at hb; cases hb
    | some base' =>
      rw [hrd] at hb
      dsimp only at hb ⊢
      rw [hb]
      dsimp only
      unfold BinVOX.write
      by_cases h0 : b.white.length = 0
      · rw [if_pos h0]
      · rw [if_neg h0]
        dsimp only
        rfl
  obtain ⟨b', h1, _, _, _, _, h6⟩ := voxcut_tile_exact hF inp bw hr hx hy hz (cuts.map fun c => (ic c, whole c)) (by
      intro p hp
      obtain ⟨c, hc, rfl⟩ := List.mem_map.mp hp
      obtain ⟨-, q⟩ := J.holdsCuts c hc
      exact ⟨(hic c hc).2, q⟩) (tileFlags fl t).region (job_regionNonneg J ht) ⟨J.size.2, J.dims.1⟩ ⟨J.size.2, J.dims.2.1⟩
      ⟨J.size.2, J.dims.2.2⟩ _ hmain
  refine ⟨b', h1, fun k => (h6 k).trans ?_⟩
  have s0 : fl.size ≠ 0 := by have := J.size.1; omega
  unfold tileFlags CutLeft
  dsimp only
  rw [if_neg s0, if_neg s0, if_neg s0]
  refine and_congr_right fun _ => and_congr_right fun _ => ?_
  constructor
  · intro h c hc; exact h (ic c, whole c) (List.mem_map.mpr ⟨c, hc, rfl⟩)
  · intro h p hp
    obtain ⟨c, hc, rfl⟩ := List.mem_map.mp hp
    exact h c hc

end Tiles
end Cmd
end StlDice
