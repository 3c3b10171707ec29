import Verif.Model.Voxcut
import Verif.Props.BinVoxFile
import Verif.Lemmas.VEncode

/-! # C25 – C28: voxcut -/

namespace StlDice
open Spec
variable {F : Type}

/-- Arithmetic in which white minus white is not visible: `1 - 1*1` clamps to something not above 0
    (true of IEEE doubles and of exact arithmetic). -/
def Spec.WhiteCancels (F : Type) [GoFloat F] : Prop :=
  survives (BinVOX.White : Color F) BinVOX.White = false

theorem whiteCancels_rat : WhiteCancels ℚ := by
  unfold WhiteCancels survives clamp01 BinVOX.White
  simp [GoFloat.lt, GoFloat.sub, GoFloat.mul, GoFloat.ofInt]
  split <;> norm_num at *

theorem cutKey_has [GoFloat F] (cut : BinVOX F) (m : WhiteVoxelMap) (v k : Key) (vc : Color F) :
    (cutKey cut m v vc).has k = true ↔ m.has k = true ∨
      (v = k ∧ ∀ c, cut.Get v.X v.Y v.Z = some c → survives vc c = true) := by
  unfold cutKey
  cases hc : cut.Get v.X v.Y v.Z with
  | none => simp [GoMap.has_set, or_comm]
  | some c =>
    dsimp only
    by_cases hs : survives vc c = true
    · have e : (⟨v.X, v.Y, v.Z⟩ : Key) = v := rfl
      rw [if_pos hs, e]
      simp [hs, GoMap.has_set, or_comm]
    · simp [hs]

theorem cutKey_WF [GoFloat F] (cut : BinVOX F) (m : WhiteVoxelMap) (v : Key) (vc : Color F)
    (h : m.WF) : (cutKey cut m v vc).WF := by
  unfold cutKey
  split
  · exact GoMap.WF_set h _ _
  · split
    · exact GoMap.WF_set h _ _
    · exact h

theorem foldl_cut_has [GoFloat F] {V : Type} (cut : BinVOX F) (col : V → Color F) (l : List (Key × V))
    (m : WhiteVoxelMap) (k : Key) :
    (l.foldl (fun m e => cutKey cut m e.1 (col e.2)) m).has k = true ↔ m.has k = true ∨
      ∃ e ∈ l, e.1 = k ∧ ∀ c, cut.Get k.X k.Y k.Z = some c → survives (col e.2) c = true := by
  induction l generalizing m with
  | nil => simp
  | cons e l ih =>
    rw [List.foldl_cons, ih, cutKey_has]
    constructor
    · rintro ((h | ⟨rfl, h⟩) | ⟨e', he', h1, h2⟩)
      · exact Or.inl h
      · exact Or.inr ⟨e, by simp, rfl, h⟩
      · exact Or.inr ⟨e', List.mem_cons_of_mem _ he', h1, h2⟩
    · rintro (h | ⟨e', he', h1, h2⟩)
      · exact Or.inl (Or.inl h)
      · rcases List.mem_cons.mp he' with rfl | he'
        · subst h1; exact Or.inl (Or.inr ⟨rfl, h2⟩)
        · exact Or.inr ⟨e', he', h1, h2⟩

theorem foldl_cut_WF [GoFloat F] {V : Type} (cut : BinVOX F) (col : V → Color F) (l : List (Key × V))
    (m : WhiteVoxelMap) (h : m.WF) : (l.foldl (fun m e => cutKey cut m e.1 (col e.2)) m).WF := by
  induction l generalizing m with
  | nil => exact h
  | cons e l ih => exact ih _ (cutKey_WF cut m e.1 _ h)

theorem length_zero_iff_has {V : Type} (m : GoMap Key V) : m.length = 0 ↔ ∀ k, m.has k = false := by
  cases m with
  | nil => simp
  | cons e m =>
    simp only [List.length_cons, Nat.add_eq_zero_iff, Nat.one_ne_zero, and_false, false_iff]
    intro h
    have := h e.1
    simp [GoMap.has, GoMap.get_cons] at this

/-! ## C25 -/

/-- C25 (any colours, any map order, any float arithmetic): with white cut voxels and white base voxels
    present, position `k` is in the result iff a white base voxel is there, or a coloured one of colour
    `vc`, that either meets no cut voxel or survives the cut voxel's colour. -/
theorem voxcut_exact [GoFloat F] (base cut : BinVOX F) (hb : base.white ≠ []) (hc : cut.white ≠ []) :
    ∃ m, voxcut base cut = some (some m) ∧ m.WF ∧
      ∀ k, m.has k = true ↔
        (base.white.has k = true ∧ ∀ c, cut.Get k.X k.Y k.Z = some c → survives BinVOX.White c = true) ∨
        ∃ vc, (k, vc) ∈ base.color ∧ ∀ c, cut.Get k.X k.Y k.Z = some c → survives vc c = true := by
  have hb' : base.white.length ≠ 0 := by simpa using hb
  have hc' : cut.white.length ≠ 0 := by simpa using hc
  refine ⟨base.color.foldl (fun m e => cutKey cut m e.1 e.2)
    (base.white.foldl (fun m e => cutKey cut m e.1 BinVOX.White) []), ?_, ?_, ?_⟩
  · simp [voxcut, hb', hc']
  · exact foldl_cut_WF cut id _ _ (foldl_cut_WF cut (fun _ => BinVOX.White) _ _ GoMap.WF_nil)
  · intro k
    have h1 := foldl_cut_has cut id base.color
      (base.white.foldl (fun m e => cutKey cut m e.1 BinVOX.White) []) k
    rw [foldl_cut_has cut (fun _ => BinVOX.White)] at h1
    simp only [id] at h1
    rw [h1]
    simp only [GoMap.has_nil, Bool.false_eq_true, false_or]
    constructor
    · rintro (⟨e, he, rfl, h⟩ | ⟨e, he, rfl, h⟩)
      · left
        refine ⟨(GoMap.mem_keys_iff _ _).mp (List.mem_map_of_mem he), h⟩
      · exact Or.inr ⟨e.2, he, h⟩
    · rintro (⟨h1, h2⟩ | ⟨vc, h1, h2⟩)
      · left
        obtain ⟨e, he, rfl⟩ := List.mem_map.mp ((GoMap.mem_keys_iff _ _).mpr h1)
        exact ⟨e, he, rfl, h2⟩
      · exact Or.inr ⟨(k, vc), h1, rfl, h2⟩

/-- Exact arithmetic: a base voxel of colour `vc` is still visible under a cut voxel of colour `c` iff it
    is not fully transparent and some channel is stronger than the cut's (weighted by its alpha). -/
def Spec.Visible (vc c : Color ℚ) : Prop :=
  0 < vc.A ∧ (c.A * c.R < vc.R ∨ c.A * c.G < vc.G ∨ c.A * c.B < vc.B)

theorem clamp01_pos (x : ℚ) : GoFloat.lt (GoFloat.ofInt 0 : ℚ) (clamp01 x) = true ↔ 0 < x := by
  unfold clamp01
  show decide (((0 : Int) : ℚ) < (if decide (x < ((0 : Int) : ℚ)) = true then ((0 : Int) : ℚ)
    else if decide (((1 : Int) : ℚ) < x) = true then ((1 : Int) : ℚ) else x)) = true ↔ 0 < x
  simp only [decide_eq_true_eq]
  push_cast
  split
  · constructor <;> intro h <;> linarith
  · split
    · constructor
      · intro _; linarith
      · intro _; norm_num
    · rfl

theorem survives_rat (vc c : Color ℚ) : survives vc c = true ↔ Visible vc c := by
  unfold survives Visible
  dsimp only
  rw [Bool.and_eq_true, Bool.or_eq_true, Bool.or_eq_true, clamp01_pos, clamp01_pos, clamp01_pos]
  show (decide (((0 : Int) : ℚ) < vc.A) = true ∧ ((0 < vc.R - c.A * c.R ∨ 0 < vc.G - c.A * c.G) ∨
    0 < vc.B - c.A * c.B)) ↔ _
  rw [decide_eq_true_eq, sub_pos, sub_pos, sub_pos, or_assoc]
  push_cast
  rfl

/-- **C25 (colours, exact arithmetic).** A position is in the result iff a white or coloured base voxel is
    there that meets no cut voxel or is still visible under the cut voxel's colour. -/
theorem voxcut_color_exact (base cut : BinVOX ℚ) (hb : base.white ≠ []) (hc : cut.white ≠ []) :
    ∃ m, voxcut base cut = some (some m) ∧ m.WF ∧
      ∀ k, m.has k = true ↔ ∃ vc : Color ℚ,
        ((base.white.has k = true ∧ vc = ⟨1, 1, 1, 1⟩) ∨ (k, vc) ∈ base.color) ∧
        ∀ c, cut.Get k.X k.Y k.Z = some c → Visible vc c := by
  obtain ⟨m, h1, h2, h3⟩ := voxcut_exact base cut hb hc
  refine ⟨m, h1, h2, ?_⟩
  intro k
  rw [h3]
  simp only [survives_rat]
  have hw : (BinVOX.White : Color ℚ) = ⟨1, 1, 1, 1⟩ := by
    unfold BinVOX.White
    simp [GoFloat.ofInt]
  rw [hw]
  constructor
  · rintro (⟨a, b⟩ | ⟨vc, a, b⟩)
    · exact ⟨_, Or.inl ⟨a, rfl⟩, b⟩
    · exact ⟨vc, Or.inr a, b⟩
  · rintro ⟨vc, ⟨a, rfl⟩ | a, b⟩
    · exact Or.inl ⟨a, b⟩
    · exact Or.inr ⟨vc, a, b⟩

/-- A half-transparent grey cut leaves white visible; a transparent base voxel is never visible. -/
example : Visible ⟨1, 1, 1, 1⟩ ⟨1/2, 1/2, 1/2, 1/2⟩ ∧ ¬ Visible ⟨1, 1, 1, 0⟩ ⟨1/2, 1/2, 1/2, 1/2⟩ := by
  unfold Visible
  norm_num

/-- A model with white voxels only (what `Read` returns). -/
def Spec.WhiteOnly (b : BinVOX F) : Prop := b.color = []

theorem get_whiteOnly [GoFloat F] (b : BinVOX F) (h : WhiteOnly b) (k : Key) :
    b.Get k.X k.Y k.Z = if b.white.has k then some BinVOX.White else none := by
  unfold BinVOX.Get
  unfold WhiteOnly at h
  rw [h]
  rfl

/-- C25: for white models the result holds exactly the base voxels whose position holds no cut voxel;
    a cut without white voxels changes nothing; the only error is an empty base with a non-empty cut. -/
theorem voxcut_white [GoFloat F] (hF : WhiteCancels F) (base cut : BinVOX F) (hb : WhiteOnly base)
    (hc : WhiteOnly cut) :
    (cut.white = [] → voxcut base cut = some base.WhiteVoxels) ∧
    (cut.white ≠ [] → base.white = [] → voxcut base cut = none) ∧
    (cut.white ≠ [] → base.white ≠ [] → ∃ m, voxcut base cut = some (some m)) ∧
    ∀ m, voxcut base cut = some m → ∀ k, (mapOf m).has k = true ↔ Vox base k ∧ ¬ Vox cut k := by
  refine ⟨?_, ?_, ?_, ?_⟩
  · intro h; simp [voxcut, h]
  · intro h1 h2
    have h1' : cut.white.length ≠ 0 := by simpa using h1
    simp [voxcut, h1', h2]
  · intro h1 h2
    obtain ⟨m, hm, _⟩ := voxcut_exact base cut h2 h1
    exact ⟨m, hm⟩
  · intro m hm k
    by_cases h1 : cut.white = []
    · have h : voxcut base cut = some base.WhiteVoxels := by simp [voxcut, h1]
      rw [h] at hm; cases hm
      unfold Vox; rw [h1]; simp; rfl
    · by_cases h2 : base.white = []
      · have h1' : cut.white.length ≠ 0 := by simpa using h1
        have h : voxcut base cut = none := by simp [voxcut, h1', h2]
        rw [h] at hm; cases hm
      · obtain ⟨m', hm', _, hk⟩ := voxcut_exact base cut h2 h1
        rw [hm'] at hm; cases hm
        show m'.has k = true ↔ _
        rw [hk, get_whiteOnly cut hc, hb]
        unfold Vox
        simp only [List.not_mem_nil, false_and, exists_false, or_false]
        by_cases hck : cut.white.has k = true
        · simp only [hck, if_true, Option.some.injEq, forall_eq', not_true, and_false, iff_false,
            not_and, Bool.not_eq_true]
          intro _; exact hF
        · simp [hck]

/-- Example models: the cut removes one of the two base voxels. -/
def exBase : BinVOX ℚ :=
  { NX := 2, NY := 2, NZ := 2, TX := 0, TY := 0, TZ := 0, Scale := 2,
    WhiteVoxels := some [(⟨0, 0, 0⟩, ()), (⟨1, 1, 1⟩, ())], ColorVoxels := none }
/-- See `exBase`. -/
def exCut : BinVOX ℚ := { exBase with TX := 1, WhiteVoxels := some [(⟨1, 1, 1⟩, ())] }

example : WhiteOnly exBase ∧ WhiteOnly exCut ∧ exCut.white ≠ [] ∧ exBase.white ≠ [] ∧
    voxcut exBase exCut = some (some [(⟨0, 0, 0⟩, ())]) := by
  refine ⟨rfl, rfl, by decide, by decide, ?_⟩
  have h : survives (BinVOX.White : Color ℚ) BinVOX.White = false := whiteCancels_rat
  have g1 : exCut.Get 0 0 0 = none := by decide
  have g2 : exCut.Get 1 1 1 = some BinVOX.White := by decide
  simp [voxcut, exBase, exCut, BinVOX.white, BinVOX.color, mapOf, cutKey, GoMap.set] at *
  simp [g1, g2, h, GoMap.set]

/-! ## C26 -/

/-- C26 (what the code does): the outcome does not depend on the translations (nor the scale or the
    dimensions) of the two models, for any float arithmetic. -/
theorem voxcut_ignores_header [GoFloat F] (base cut base' cut' : BinVOX F)
    (h1 : base'.WhiteVoxels = base.WhiteVoxels) (h2 : base'.ColorVoxels = base.ColorVoxels)
    (h3 : cut'.WhiteVoxels = cut.WhiteVoxels) (h4 : cut'.ColorVoxels = cut.ColorVoxels) :
    voxcut base' cut' = voxcut base cut := by
  have hk : ∀ m v vc, cutKey cut' m v vc = cutKey cut m v vc := by
    intro m v vc
    unfold cutKey BinVOX.Get BinVOX.white BinVOX.color
    rw [h3, h4]
  unfold voxcut BinVOX.white BinVOX.color
  rw [h1, h2, h3]
  simp only [hk]

/-- The cut that respects the translations: base voxel `k` sits at the place of cut voxel
    `k + (T_base - T_cut) * voxels-per-mm` (an integer offset `d`). -/
def Spec.translatedCut (base cut : BinVOX F) (d : Key) (k : Key) : Prop :=
  Vox base k ∧ ¬ Vox cut (k.shift d.X d.Y d.Z)

/-- C26: the documented result is produced iff, at every base voxel, the cut looks the same with and
    without the offset; in particular when the offset is 0. -/
theorem voxcut_translation_iff [GoFloat F] (hF : WhiteCancels F) (base cut : BinVOX F)
    (hb : WhiteOnly base) (hc : WhiteOnly cut) (d : Key) (m : Option WhiteVoxelMap)
    (hm : voxcut base cut = some m) :
    (∀ k, (mapOf m).has k = true ↔ translatedCut base cut d k) ↔
      ∀ k, Vox base k → (Vox cut k ↔ Vox cut (k.shift d.X d.Y d.Z)) := by
  have h := (voxcut_white hF base cut hb hc).2.2.2 m hm
  unfold translatedCut
  constructor
  · intro ht k hk
    have h1 := h k
    rw [ht k] at h1
    tauto
  · intro ht k
    rw [h k]
    have := ht k
    tauto

/-- C26 is violated: with an offset of one voxel the code removes the wrong voxel. -/
theorem voxcut_translation_violated :
    ∃ m, voxcut exBase exCut = some m ∧
      ¬ ∀ k, (mapOf m).has k = true ↔ translatedCut exBase exCut ⟨-1, 0, 0⟩ k := by
  obtain ⟨m, hm⟩ := (voxcut_white whiteCancels_rat exBase exCut rfl rfl).2.2.1 (by decide) (by decide)
  refine ⟨some m, hm, ?_⟩
  rw [voxcut_translation_iff whiteCancels_rat exBase exCut rfl rfl ⟨-1, 0, 0⟩ _ hm]
  intro h
  have := h ⟨1, 1, 1⟩ (by unfold Vox; decide)
  unfold Vox at this
  revert this
  decide

/-! ## C27 -/

theorem voxcutLoop_exact [GoFloat F] (hF : WhiteCancels F) (cuts : List (Option (BinVOX F)))
    (base : BinVOX F) (hb : WhiteOnly base) (hc : ∀ c, some c ∈ cuts → WhiteOnly c) :
    ((∃ b, voxcutLoop base cuts = some b) ↔
      ((∀ c ∈ cuts, c = none) ∨ ∃ k, Vox base k ∧ ∀ c, some c ∈ cuts → ¬ Vox c k)) ∧
    ∀ b, voxcutLoop base cuts = some b →
      (b.NX = base.NX ∧ b.NY = base.NY ∧ b.NZ = base.NZ ∧ b.TX = base.TX ∧ b.TY = base.TY ∧
        b.TZ = base.TZ ∧ b.Scale = base.Scale ∧ WhiteOnly b) ∧
      ∀ k, Vox b k ↔ Vox base k ∧ ∀ c, some c ∈ cuts → ¬ Vox c k := by
  induction cuts generalizing base with
  | nil =>
    refine ⟨by simp [voxcutLoop], ?_⟩
    intro b h
    simp only [voxcutLoop, Option.some.injEq] at h
    subst h
    exact ⟨⟨rfl, rfl, rfl, rfl, rfl, rfl, rfl, hb⟩, by simp⟩
  | cons c cuts ih =>
    cases c with
    | none =>
      have := ih base hb (fun c hc' => hc c (List.mem_cons_of_mem _ hc'))
      simpa [voxcutLoop] using this
    | some c =>
      have hcw := hc c (by simp)
      have hw := voxcut_white hF base c hb hcw
      have hnil : ∀ b : BinVOX F, b.white.length = 0 ↔ ∀ k, ¬ Vox b k := by
        intro b; rw [length_zero_iff_has]; simp [Vox]
      cases hv : voxcut base c with
      | none =>
        have hbe : base.white = [] := by
          by_contra hne
          by_cases h1 : c.white = []
          · rw [hw.1 h1] at hv; cases hv
          · obtain ⟨m, hm⟩ := hw.2.2.1 h1 hne
            rw [hm] at hv; cases hv
        have hbv : ∀ k, ¬ Vox base k := (hnil base).mp (by simp [hbe])
        simp only [voxcutLoop, hv]
        refine ⟨?_, by simp⟩
        constructor
        · rintro ⟨b, h⟩; cases h
        · rintro (h | ⟨k, h, _⟩)
          · have := h (some c) (by simp); cases this
          · exact absurd h (hbv k)
      | some m =>
        have hk := hw.2.2.2 m hv
        let base' : BinVOX F := { base with WhiteVoxels := m }
        have hvox : ∀ k, Vox base' k ↔ Vox base k ∧ ¬ Vox c k := hk
        simp only [voxcutLoop, hv]
        by_cases h0 : base'.white.length = 0
        · rw [if_pos h0]
          have hno := (hnil base').mp h0
          refine ⟨?_, by simp⟩
          constructor
          · rintro ⟨b, h⟩; cases h
          · rintro (h | ⟨k, h, h'⟩)
            · have := h (some c) (by simp); cases this
            · exact absurd ((hvox k).mpr ⟨h, h' c (by simp)⟩) (hno k)
        · rw [if_neg h0]
          obtain ⟨ih1, ih2⟩ := ih base' hb (fun c hc' => hc c (List.mem_cons_of_mem _ hc'))
          have hcombine : ∀ k, (Vox base' k ∧ ∀ c', some c' ∈ cuts → ¬ Vox c' k) ↔
              (Vox base k ∧ ∀ c', some c' ∈ some c :: cuts → ¬ Vox c' k) := by
            intro k
            rw [hvox]
            simp only [List.mem_cons, Option.some.injEq]
            constructor
            · rintro ⟨⟨a1, a2⟩, a3⟩
              refine ⟨a1, ?_⟩
              rintro c' (rfl | h)
              · exact a2
              · exact a3 c' h
            · rintro ⟨a1, a2⟩
              exact ⟨⟨a1, a2 c (Or.inl rfl)⟩, fun c' h => a2 c' (Or.inr h)⟩
          refine ⟨?_, ?_⟩
          · rw [ih1]
            constructor
            · rintro (h | ⟨k, h⟩)
              · right
                have : ∃ k, Vox base' k := by
                  by_contra hno
                  exact h0 ((hnil base').mpr fun k hk => hno ⟨k, hk⟩)
                obtain ⟨k, hk'⟩ := this
                refine ⟨k, (hcombine k).mp ⟨hk', ?_⟩⟩
                intro c' hc'; have := h _ hc'; cases this
              · exact Or.inr ⟨k, (hcombine k).mp h⟩
            · rintro (h | ⟨k, h⟩)
              · have := h (some c) (by simp); cases this
              · exact Or.inr ⟨k, (hcombine k).mpr h⟩
          · intro b hb'
            obtain ⟨h1, h2⟩ := ih2 b hb'
            refine ⟨h1, ?_⟩
            intro k
            rw [h2 k]
            exact hcombine k

/-- C27: the set of readable cuts alone decides whether voxcut goes through and which voxels remain:
    any reordering and any repetition of the cuts give the same outcome. -/
theorem voxcut_order_independent [GoFloat F] (hF : WhiteCancels F) (base : BinVOX F)
    (cuts cuts' : List (Option (BinVOX F))) (hb : WhiteOnly base)
    (hc : ∀ c, some c ∈ cuts → WhiteOnly c)
    (hsame : ∀ c, some c ∈ cuts' ↔ some c ∈ cuts) :
    ((∃ b, voxcutLoop base cuts = some b) ↔ (∃ b, voxcutLoop base cuts' = some b)) ∧
    ∀ b b', voxcutLoop base cuts = some b → voxcutLoop base cuts' = some b' →
      b'.NX = b.NX ∧ b'.NY = b.NY ∧ b'.NZ = b.NZ ∧ b'.TX = b.TX ∧ b'.TY = b.TY ∧ b'.TZ = b.TZ ∧
        b'.Scale = b.Scale ∧ ∀ k, Vox b' k ↔ Vox b k := by
  have hc' : ∀ c, some c ∈ cuts' → WhiteOnly c := fun c h => hc c ((hsame c).mp h)
  obtain ⟨e1, v1⟩ := voxcutLoop_exact hF cuts base hb hc
  obtain ⟨e2, v2⟩ := voxcutLoop_exact hF cuts' base hb hc'
  have hall : (∀ c ∈ cuts, c = none) ↔ (∀ c ∈ cuts', c = none) := by
    constructor
    · intro h c hcm
      cases c with
      | none => rfl
      | some c => have := h _ ((hsame c).mp hcm); cases this
    · intro h c hcm
      cases c with
      | none => rfl
      | some c => have := h _ ((hsame c).mpr hcm); cases this
  refine ⟨?_, ?_⟩
  · rw [e1, e2, hall]
    simp only [hsame]
  · intro b b' h h'
    obtain ⟨⟨a1, a2, a3, a4, a5, a6, a7, _⟩, a8⟩ := v1 b h
    obtain ⟨⟨c1, c2, c3, c4, c5, c6, c7, _⟩, c8⟩ := v2 b' h'
    refine ⟨by rw [a1, c1], by rw [a2, c2], by rw [a3, c3], by rw [a4, c4], by rw [a5, c5],
      by rw [a6, c6], by rw [a7, c7], ?_⟩
    intro k
    rw [a8, c8]
    simp only [hsame]

/-- C27: cutting with several models equals one cut with a model holding the union of their voxels. -/
theorem voxcut_union [GoFloat F] (hF : WhiteCancels F) (base u : BinVOX F) (c : BinVOX F)
    (cuts : List (BinVOX F)) (hb : WhiteOnly base) (hc : ∀ x ∈ c :: cuts, WhiteOnly x) (hu : WhiteOnly u)
    (hunion : ∀ k, Vox u k ↔ ∃ x ∈ c :: cuts, Vox x k) :
    ((∃ b, voxcutLoop base ((c :: cuts).map some) = some b) ↔ (∃ b, voxcutLoop base [some u] = some b)) ∧
    ∀ b b', voxcutLoop base ((c :: cuts).map some) = some b → voxcutLoop base [some u] = some b' →
      ∀ k, Vox b' k ↔ Vox b k := by
  have hmem : ∀ (x : BinVOX F), some x ∈ (c :: cuts).map some ↔ x ∈ c :: cuts := by
    intro x; simp only [List.mem_map, Option.some.injEq, exists_eq_right]
  obtain ⟨e1, v1⟩ := voxcutLoop_exact hF ((c :: cuts).map some) base hb
    (fun x h => hc x ((hmem x).mp h))
  obtain ⟨e2, v2⟩ := voxcutLoop_exact hF [some u] base hb (by simpa using hu)
  have hset : ∀ k, (Vox base k ∧ ∀ x, some x ∈ (c :: cuts).map some → ¬ Vox x k) ↔
      (Vox base k ∧ ∀ x, some x ∈ [some u] → ¬ Vox x k) := by
    intro k
    simp only [hmem, List.mem_singleton, Option.some.injEq, forall_eq]
    rw [hunion k]
    constructor
    · rintro ⟨h1, h2⟩; exact ⟨h1, by rintro ⟨x, hx, h⟩; exact h2 x hx h⟩
    · rintro ⟨h1, h2⟩; exact ⟨h1, fun x hx h => h2 ⟨x, hx, h⟩⟩
  refine ⟨?_, ?_⟩
  · rw [e1, e2]
    have n1 : ¬ ∀ x ∈ (c :: cuts).map some, x = none := by
      intro h; have := h (some c) (by simp); cases this
    have n2 : ¬ ∀ x ∈ [some u], x = none := by
      intro h; have := h (some u) (by simp); cases this
    simp only [n1, n2, false_or]
    exact exists_congr hset
  · intro b b' h h' k
    rw [(v1 b h).2 k, (v2 b' h').2 k]
    exact (hset k).symm

/-! ## C28: the VOX file -/

theorem voxCalls_length (m : WhiteVoxelMap) : (voxCalls m).length = 8 + 4 * m.length := by
  unfold voxCalls
  simp only [List.length_append, List.length_cons, List.length_nil, List.length_flatMap,
    List.map_const', List.sum_replicate]
  simp; omega

/-- What the XYZI chunk holds: the number of voxels, then four int32 per voxel. -/
def voxContent (m : WhiteVoxelMap) : Bytes :=
  leInt m.length ++ (m.keys.flatMap fun k => leInt k.X ++ leInt k.Y ++ leInt k.Z ++ leInt 1)

theorem voxContent_eq (m : WhiteVoxelMap) : voxContent m =
    leInt m.length ++ (m.flatMap fun e => [leInt e.1.X, leInt e.1.Y, leInt e.1.Z, leInt 1]).flatten := by
  unfold voxContent GoMap.keys
  congr 1
  induction m with
  | nil => rfl
  | cons e m ih =>
    rw [List.map_cons, List.flatMap_cons, List.flatMap_cons, List.flatten_append, ih]
    simp [List.append_assoc]

/-- C28: the file is the header, the MAIN and SIZE chunks and an XYZI chunk header followed by
    `16 n + 4` bytes (the number of voxels and x, y, z, 1 as int32 for each), where the XYZI header
    declares `4 n + 4` content bytes and MAIN declares `4 n + 16` children bytes although `16 n + 40`
    follow.  Sizes in an int32, `n < 2^27`. -/
theorem writeVOX_layout (m : WhiteVoxelMap) (hn : m.length < 134217728) :
      (writeVOX ⟨[], []⟩ m).1.out =
        ascii "VOX " ++ leInt 150 ++
        (ascii "MAIN" ++ leInt 0 ++ leInt (4 * m.length + 16)) ++
        ((ascii "SIZE" ++ leInt 12 ++ leInt 0 ++
          (leInt (voxMax Key.X m) ++ leInt (voxMax Key.Y m) ++ leInt (voxMax Key.Z m))) ++
         (ascii "XYZI" ++ leInt (4 * m.length + 4) ++ leInt 0 ++ voxContent m)) ∧
      (writeVOX ⟨[], []⟩ m).2 = true ∧
      (voxContent m).length = 16 * m.length + 4 ∧
      (((voxContent m).length : Int) = 4 * m.length + 4 ↔ m = []) ∧
      (24 + (12 + (voxContent m).length) ≠ 4 * m.length + 16) := by
  rw [voxContent_eq]
  have hl : (m.flatMap fun e => [leInt e.1.X, leInt e.1.Y, leInt e.1.Z, leInt 1]).flatten.length =
      16 * m.length := by
    clear hn
    induction m with
    | nil => rfl
    | cons e m ih =>
      rw [List.flatMap_cons, List.flatten_append, List.length_append, ih]
      simp [leInt, le32]; omega
  have hok := writeAll_ok ⟨[], []⟩ (voxCalls m) (by simp)
  refine ⟨?_, hok.1, ?_, ?_, ?_⟩
  · unfold writeVOX
    rw [hok.2]
    have e1 : (12 : Int) + (m.length : Int) * 4 + 4 = 4 * m.length + 16 := by omega
    have e2 : (m.length : Int) * 4 + 4 = 4 * m.length + 4 := by omega
    simp only [voxCalls, voxChunk, e1, e2, List.nil_append, List.flatten_append, List.flatten_cons,
      List.flatten_nil, List.append_nil, List.append_assoc]
  · rw [List.length_append, hl]; simp [leInt, le32]; omega
  · rw [List.length_append, hl]
    simp only [leInt, le32, List.length_cons, List.length_nil]
    constructor
    · intro h
      have : m.length = 0 := by omega
      simpa using this
    · rintro rfl; simp
  · rw [List.length_append, hl]; simp [leInt, le32]; omega

/-- C28: SIZE holds, for each axis, the largest coordinate (or 0): so the voxel that attains a
    positive maximum does not fit the declared size. -/
theorem voxMax_spec (f : Key → Int) (m : WhiteVoxelMap) :
    0 ≤ voxMax f m ∧ (∀ k, m.has k = true → f k ≤ voxMax f m) ∧
      (voxMax f m = 0 ∨ ∃ k, m.has k = true ∧ f k = voxMax f m) := by
  have key : ∀ (l : WhiteVoxelMap) (a : Int),
      let r := l.foldl (fun a e => if f e.1 > a then f e.1 else a) a
      a ≤ r ∧ (∀ e ∈ l, f e.1 ≤ r) ∧ (r = a ∨ ∃ e ∈ l, f e.1 = r) := by
    intro l
    induction l with
    | nil => intro a; simp
    | cons e l ih =>
      intro a
      obtain ⟨h1, h2, h3⟩ := ih (if f e.1 > a then f e.1 else a)
      simp only [List.foldl_cons] at *
      have hge : a ≤ (if f e.1 > a then f e.1 else a) ∧ f e.1 ≤ (if f e.1 > a then f e.1 else a) := by
        split <;> constructor <;> omega
      refine ⟨by omega, ?_, ?_⟩
      · intro e' he'
        rcases List.mem_cons.mp he' with rfl | he'
        · omega
        · exact h2 e' he'
      · rcases h3 with h3 | ⟨e', he', h3⟩
        · by_cases hc : f e.1 > a
          · right; exact ⟨e, by simp, by rw [h3, if_pos hc]⟩
          · left; rw [h3, if_neg hc]
        · exact Or.inr ⟨e', List.mem_cons_of_mem _ he', h3⟩
  obtain ⟨h1, h2, h3⟩ := key m 0
  refine ⟨h1, ?_, ?_⟩
  · intro k hk
    obtain ⟨e, he, rfl⟩ := List.mem_map.mp ((GoMap.mem_keys_iff _ _).mpr hk)
    exact h2 e he
  · rcases h3 with h3 | ⟨e, he, h3⟩
    · exact Or.inl h3
    · exact Or.inr ⟨e.1, (GoMap.mem_keys_iff _ _).mp (List.mem_map_of_mem he), h3⟩

/-- writeVOX reports an error iff one of its write calls failed. -/
theorem writeVOX_reports_iff (w : Sink) (m : WhiteVoxelMap) :
    (writeVOX w m).2 = true ↔ ∀ i < 8 + 4 * m.length, ∀ k, w.plan[i]? ≠ some (WOut.fail k) := by
  unfold writeVOX
  rw [writeAll_ok_iff, voxCalls_length]

/-! ## More examples -/

/-- A base with a coloured voxel as well. -/
def exColor : BinVOX ℚ := { exBase with ColorVoxels := some [(⟨1, 1, 1⟩, ⟨1, 1, 1, 1⟩), (⟨2, 0, 0⟩, ⟨1 / 2, 1 / 2, 1 / 2, 1⟩)] }

example := voxcut_exact exColor exCut (by decide) (by decide)
example := voxcut_color_exact exColor exCut (by decide) (by decide)
example := voxcut_white whiteCancels_rat exBase exCut rfl rfl
/-- Another resolution and place. -/
example := voxcut_ignores_header exBase exCut { exBase with TX := 7, Scale := 2 } { exCut with NX := 9 } rfl rfl rfl rfl
example : ∃ m, voxcut exBase exCut = some m ∧
    ((∀ k, (mapOf m).has k = true ↔ translatedCut exBase exCut ⟨1, 0, 0⟩ k) ↔
      ∀ k, Vox exBase k → (Vox exCut k ↔ Vox exCut (k.shift 1 0 0))) := by
  obtain ⟨m, hm⟩ := (voxcut_white whiteCancels_rat exBase exCut rfl rfl).2.2.1 (by decide) (by decide)
  exact ⟨_, hm, voxcut_translation_iff whiteCancels_rat exBase exCut rfl rfl ⟨1, 0, 0⟩ _ hm⟩
/-- A second cut. -/
def exCut2 : BinVOX ℚ := { exCut with WhiteVoxels := some [(⟨3, 0, 0⟩, ())] }

example := voxcutLoop_exact whiteCancels_rat [some exCut, none, some exCut2] exBase rfl (by simp [WhiteOnly, exCut, exCut2, exBase, BinVOX.color, mapOf])
example := voxcut_order_independent whiteCancels_rat exBase [some exCut, none, some exCut2] [some exCut2, some exCut] rfl
  (by simp [WhiteOnly, exCut, exCut2, exBase, BinVOX.color, mapOf]) (by intro c; simp; tauto)
example := voxcut_union whiteCancels_rat exBase { exCut with WhiteVoxels := some (exCut.white ++ exCut2.white) } exCut [exCut2] rfl
  (by simp [WhiteOnly, exCut, exCut2, exBase, BinVOX.color, mapOf]) rfl (by
    intro k
    unfold Vox
    rw [← GoMap.mem_keys_iff]
    simp only [List.mem_cons, List.not_mem_nil, or_false, exists_eq_or_imp, exists_eq_left, ← GoMap.mem_keys_iff]
    simp [BinVOX.white, mapOf, GoMap.keys, exCut, exCut2])
example := writeVOX_layout [(⟨0, 0, 0⟩, ()), (⟨1, 1, 1⟩, ())] (by decide)

end StlDice
