import Verif.Model.Svx
import Verif.Lemmas.GoMap
import Mathlib.Data.List.Induction

/-! # Slice images (C41, C64) -/

namespace StlDice

/-- The image shows `solid` between the two corners given: a pixel is white iff it lies in the image
    and the cell `cell i j` of the slice is in `solid`. -/
def Spec.Shows (img : Image) (w h : Int) (solid : Int → Int → Prop) (cell : Int → Int → Int × Int) :
    Prop :=
  img.W = w ∧ img.H = h ∧ ∀ i j, img.white i j = true ↔
    0 ≤ i ∧ i < w ∧ 0 ≤ j ∧ j < h ∧ solid (cell i j).1 (cell i j).2

/-- The cells of a slice that remain when, of the voxels received, the cut ones are removed from the
    base ones. -/
def Spec.BaseMinusCuts (vs : List VoxelInfo) (x y : Int) : Prop :=
  ⟨x, y, true⟩ ∈ vs ∧ ⟨x, y, false⟩ ∉ vs

theorem collect_append (px : VoxelInfo → Int × Int) (vs : List VoxelInfo) (v : VoxelInfo) :
    collectPixels px (vs ++ [v]) = pixelStep (collectPixels px vs) (px v) v.Base := by
  unfold collectPixels
  rw [List.foldl_append]
  rfl

theorem collect_WF (px : VoxelInfo → Int × Int) (vs : List VoxelInfo) :
    GoMap.WF (collectPixels px vs) := by
  induction vs using List.reverseRecOn with
  | nil => exact GoMap.WF_nil
  | append_singleton vs v ih =>
    rw [collect_append]
    unfold pixelStep
    split
    · split
      · exact GoMap.WF_set ih _ _
      · exact ih
    · exact GoMap.WF_set ih _ _

theorem collect_get (px : VoxelInfo → Int × Int) (vs : List VoxelInfo) (k : Int × Int) :
    ((collectPixels px vs).get k = none ↔ ∀ v ∈ vs, px v ≠ k) ∧
    ((collectPixels px vs).get k = some true ↔
      (∃ v ∈ vs, px v = k) ∧ ∀ v ∈ vs, px v = k → v.Base = true) := by
  induction vs using List.reverseRecOn with
  | nil => simp [collectPixels]
  | append_singleton vs v ih =>
    rw [collect_append]
    obtain ⟨i1, i2⟩ := ih
    have hex : (∃ w ∈ vs ++ [v], px w = k) ↔ (∃ w ∈ vs, px w = k) ∨ px v = k := by
      simp only [List.mem_append, List.mem_singleton, or_and_right, exists_or, exists_eq_left]
    have hne : (∀ w ∈ vs ++ [v], px w ≠ k) ↔ (∀ w ∈ vs, px w ≠ k) ∧ px v ≠ k := by
      simp only [List.mem_append, List.mem_singleton, or_imp, forall_and, forall_eq]
    have hall : (∀ w ∈ vs ++ [v], px w = k → w.Base = true) ↔
        (∀ w ∈ vs, px w = k → w.Base = true) ∧ (px v = k → v.Base = true) := by
      simp only [List.mem_append, List.mem_singleton, or_imp, forall_and, forall_eq]
    rw [hex, hne, hall]
    clear hex hne hall
    by_cases hk : px v = k
    · unfold pixelStep
      rw [hk]
      cases hg : (collectPixels px vs).get k with
      | none =>
        have hn := i1.mp hg
        dsimp only
        rw [GoMap.get_set]
        simp only [if_true, Option.some.injEq, reduceCtorEq, ne_eq, not_true_eq_false, and_false,
          or_true, true_and, true_implies]
        exact ⟨fun h => ⟨fun a ha e => absurd e (hn a ha), h⟩, fun h => h.2⟩
      | some c =>
        dsimp only
        cases c with
        | true =>
          have := i2.mp hg
          simp only [if_true, GoMap.get_set, Option.some.injEq, reduceCtorEq, ne_eq,
            not_true_eq_false, and_false, or_true, true_and, true_implies]
          exact ⟨fun h => ⟨this.2, h⟩, fun h => h.2⟩
        | false =>
          simp only [Bool.false_eq_true, if_false, hg, Option.some.injEq, reduceCtorEq, ne_eq,
            not_true_eq_false, and_false, or_true, true_and, true_implies, false_iff]
          rintro ⟨h1, _⟩
          have hne : ¬ (∀ w ∈ vs, px w ≠ k) := fun hh => by rw [i1.mpr hh] at hg; cases hg
          push Not at hne
          obtain ⟨w, hw, e⟩ := hne
          have := i2.mpr ⟨⟨w, hw, e⟩, h1⟩
          rw [this] at hg; cases hg
    · have hget : (pixelStep (collectPixels px vs) (px v) v.Base).get k =
          (collectPixels px vs).get k := by
        unfold pixelStep
        split
        · split
          · rw [GoMap.get_set, if_neg hk]
          · rfl
        · rw [GoMap.get_set, if_neg hk]
      rw [hget]
      simp only [hk, ne_eq, not_false_eq_true, and_true, or_false, false_implies]
      exact ⟨i1, i2⟩

theorem paint_append (o : Int) (img : Image) (ord : List ((Int × Int) × Bool)) (e : (Int × Int) × Bool) :
    paint o img (ord ++ [e]) = (paint o img ord).Set (e.1.1 + o) (e.1.2 + o) e.2 := by
  unfold paint
  rw [List.foldl_append]
  rfl

theorem paint_size (o : Int) (img : Image) (ord : List ((Int × Int) × Bool)) :
    (paint o img ord).W = img.W ∧ (paint o img ord).H = img.H := by
  induction ord using List.reverseRecOn with
  | nil => exact ⟨rfl, rfl⟩
  | append_singleton ord e ih =>
    rw [paint_append]
    unfold Image.Set
    split
    · exact ih
    · exact ih

theorem paint_white (o w h : Int) (ord : List ((Int × Int) × Bool)) (hn : (ord.map (·.1)).Nodup)
    (i j : Int) :
    (paint o (Image.blank w h) ord).white i j = true ↔
      0 ≤ i ∧ i < w ∧ 0 ≤ j ∧ j < h ∧ ((i - o, j - o), true) ∈ ord := by
  induction ord using List.reverseRecOn with
  | nil => simp [paint, Image.blank]
  | append_singleton ord e ih =>
    rw [List.map_append, List.nodup_append] at hn
    obtain ⟨hn1, _, hn2⟩ := hn
    have ih := ih hn1
    rw [paint_append]
    have hw : (paint o (Image.blank w h) ord).W = w := (paint_size _ _ _).1
    have hh : (paint o (Image.blank w h) ord).H = h := (paint_size _ _ _).2
    generalize paint o (Image.blank w h) ord = img at *
    unfold Image.Set
    rw [hw, hh]
    obtain ⟨⟨ex, ey⟩, eb⟩ := e
    dsimp only
    rw [List.mem_append, List.mem_singleton, Prod.mk.injEq, Prod.mk.injEq]
    have hout : ((i - o = ex ∧ j - o = ey) → ((i - o, j - o), true) ∉ ord) := by
      rintro ⟨rfl, rfl⟩ hm
      exact hn2 _ (List.mem_map_of_mem hm) (i - o, j - o) (by simp) rfl
    split
    · rename_i hin
      dsimp only
      by_cases hp : i = ex + o ∧ j = ey + o
      · rw [if_pos hp]
        obtain ⟨rfl, rfl⟩ := hp
        have := hout ⟨by omega, by omega⟩
        constructor
        · rintro rfl
          exact ⟨hin.1, hin.2.1, hin.2.2.1, hin.2.2.2, Or.inr ⟨⟨by omega, by omega⟩, rfl⟩⟩
        · rintro ⟨_, _, _, _, h5 | h5⟩
          · exact absurd h5 this
          · exact h5.2.symm
      · rw [if_neg hp, ih]
        constructor
        · rintro ⟨a, b, c, d, f⟩; exact ⟨a, b, c, d, Or.inl f⟩
        · rintro ⟨a, b, c, d, f | f⟩
          · exact ⟨a, b, c, d, f⟩
          · exact absurd ⟨by omega, by omega⟩ hp
    · rename_i hin
      rw [ih]
      constructor
      · rintro ⟨a, b, c, d, f⟩; exact ⟨a, b, c, d, Or.inl f⟩
      · rintro ⟨a, b, c, d, f | f⟩
        · exact ⟨a, b, c, d, f⟩
        · exact absurd ⟨by omega, by omega, by omega, by omega⟩ hin

theorem imager_core (o w h : Int) (px : VoxelInfo → Int × Int) (vs : List VoxelInfo)
    (ord : List ((Int × Int) × Bool)) (hp : ord.Perm (collectPixels px vs)) (i j : Int) :
    (paint o (Image.blank w h) ord).white i j = true ↔
      0 ≤ i ∧ i < w ∧ 0 ≤ j ∧ j < h ∧
      (∃ v ∈ vs, px v = (i - o, j - o)) ∧ ∀ v ∈ vs, px v = (i - o, j - o) → v.Base = true := by
  have hn : (ord.map (·.1)).Nodup := (hp.map _).nodup_iff.mpr (collect_WF px vs)
  rw [paint_white o w h ord hn i j, hp.mem_iff,
    ← GoMap.get_eq_some_iff_mem (collect_WF px vs), (collect_get px vs _).2]

/-- **C41.** Whatever voxels are received, in whatever order, and in whatever order the collected
    pixels are painted, the image has `dim + 2` pixels along each side and the pixel `(i, j)` is white
    iff the cell `(i - 1, dim - j)` is in the base and in no cut; in other words the cell `(x, y)` is
    shown at `(x + 1, dim - 1 - y + 1)`. -/
theorem imager_exact (dim : Int) (vs : List VoxelInfo) (img : Image) (h : ImagerRun dim vs img) :
    Spec.Shows img (dim + 2) (dim + 2) (Spec.BaseMinusCuts vs) (fun i j => (i - 1, dim - j)) := by
  obtain ⟨ord, hp, rfl⟩ := h
  refine ⟨(paint_size _ _ _).1, (paint_size _ _ _).2, ?_⟩
  intro i j
  rw [imager_core 1 (dim + 2) (dim + 2) (svxPixel dim) vs ord hp i j]
  unfold svxPixel Spec.BaseMinusCuts
  dsimp only
  have e : ∀ v : VoxelInfo, ((v.X, dim - 1 - v.Y) = (i - 1, j - 1)) ↔ (v.X = i - 1 ∧ v.Y = dim - j) := by
    intro v
    rw [Prod.mk.injEq]
    constructor
    · rintro ⟨a, b⟩; exact ⟨a, by omega⟩
    · rintro ⟨a, b⟩; exact ⟨a, by omega⟩
  simp only [e]
  constructor
  · rintro ⟨a, b, c, d, ⟨v, hv, hx, hy⟩, hall⟩
    have hb := hall v hv ⟨hx, hy⟩
    refine ⟨a, b, c, d, ?_, ?_⟩
    · obtain ⟨X, Y, B⟩ := v
      dsimp only at hx hy hb; subst hx hy hb; exact hv
    · intro hm
      have := hall _ hm ⟨rfl, rfl⟩
      cases this
  · rintro ⟨a, b, c, d, hm, hn⟩
    refine ⟨a, b, c, d, ⟨_, hm, rfl, rfl⟩, ?_⟩
    rintro ⟨X, Y, B⟩ hv ⟨rfl, rfl⟩
    cases B with
    | true => rfl
    | false => exact absurd hv hn

/-- **C41.** Every list of voxels gives an image. -/
theorem imager_defined (dim : Int) (vs : List VoxelInfo) : ∃ img, ImagerRun dim vs img :=
  ⟨_, _, List.Perm.refl _, rfl⟩

/-- **C41.** The image depends only on which voxels were received: two runs that receive the same
    voxels, in any order and any number of times, give the same image. -/
theorem imager_order_independent (dim : Int) (vs vs' : List VoxelInfo) (img img' : Image)
    (h : ImagerRun dim vs img) (h' : ImagerRun dim vs' img') (hv : ∀ v, v ∈ vs ↔ v ∈ vs') :
    img = img' := by
  obtain ⟨a1, a2, a3⟩ := imager_exact dim vs img h
  obtain ⟨b1, b2, b3⟩ := imager_exact dim vs' img' h'
  obtain ⟨W, H, f⟩ := img
  obtain ⟨W', H', f'⟩ := img'
  dsimp only at *
  subst a1 a2 b1 b2
  have : f = f' := by
    funext i j
    rw [Bool.eq_iff_iff, a3, b3]
    unfold Spec.BaseMinusCuts
    rw [hv, hv]
  rw [this]

/-- **C41.** The one-pixel border is black when the base voxels received lie in the grid. -/
theorem imager_border_black (dim : Int) (vs : List VoxelInfo) (img : Image) (h : ImagerRun dim vs img)
    (hv : ∀ v ∈ vs, v.Base = true → 0 ≤ v.X ∧ v.X < dim ∧ 0 ≤ v.Y ∧ v.Y < dim) (i j : Int)
    (hb : i = 0 ∨ i = dim + 1 ∨ j = 0 ∨ j = dim + 1) : img.white i j = false := by
  rw [← Bool.not_eq_true]
  intro hw
  obtain ⟨_, _, a3⟩ := imager_exact dim vs img h
  obtain ⟨_, _, _, _, hm, _⟩ := (a3 i j).mp hw
  have := hv _ hm rfl
  dsimp only at this
  omega

/-- A cut removes a base voxel whichever arrives first; the voxel `(0, 1)` of a 3 × 3 slice is shown
    at the pixel `(1, 2)`, `(0, 0)` below it at `(1, 3)`. -/
example (img : Image) (h : ImagerRun 3 [⟨2, 2, false⟩, ⟨0, 1, true⟩, ⟨1, 1, true⟩, ⟨1, 1, false⟩, ⟨2, 2, true⟩] img) :
    img.white 1 2 = true ∧ img.white 2 2 = false ∧ img.white 3 1 = false ∧ img.white 0 2 = false := by
  obtain ⟨_, _, a3⟩ := imager_exact _ _ _ h
  refine ⟨(a3 1 2).mpr ?_, ?_, ?_, ?_⟩
  · unfold Spec.BaseMinusCuts; decide
  all_goals
    rw [← Bool.not_eq_true, a3]
    unfold Spec.BaseMinusCuts
    decide

/-! ## stldice-mr -/

/-- **C64.** The image of stldice-mr shows the received voxels unmirrored and without a border. -/
theorem mr_image_exact (dim : Int) (vs : List VoxelInfo) (img : Image) (h : MrImage dim vs img) :
    Spec.Shows img dim dim (Spec.BaseMinusCuts vs) (fun i j => (i, j)) := by
  obtain ⟨ord, hp, rfl⟩ := h
  refine ⟨(paint_size _ _ _).1, (paint_size _ _ _).2, ?_⟩
  intro i j
  rw [imager_core 0 dim dim (fun v => (v.X, v.Y)) vs ord hp i j]
  unfold Spec.BaseMinusCuts
  dsimp only
  simp only [Prod.mk.injEq, Int.sub_zero]
  constructor
  · rintro ⟨a, b, c, d, ⟨⟨X, Y, B⟩, hv, hx, hy⟩, hall⟩
    have hb := hall _ hv ⟨hx, hy⟩
    refine ⟨a, b, c, d, ?_, ?_⟩
    · dsimp only at hx hy hb; subst hx hy hb; exact hv
    · intro hm
      have := hall _ hm ⟨rfl, rfl⟩
      cases this
  · rintro ⟨a, b, c, d, hm, hn⟩
    refine ⟨a, b, c, d, ⟨_, hm, rfl, rfl⟩, ?_⟩
    rintro ⟨X, Y, B⟩ hv ⟨rfl, rfl⟩
    cases B with
    | true => rfl
    | false => exact absurd hv hn

/-- `imager_order_independent` and `imager_border_black` on this slice, `mr_image_exact` on the same voxels. -/
example : ∃ img img', ImagerRun 3 [⟨2, 2, false⟩, ⟨0, 1, true⟩, ⟨2, 2, true⟩] img ∧ ImagerRun 3 [⟨2, 2, true⟩, ⟨0, 1, true⟩, ⟨2, 2, false⟩] img' ∧
    img = img' ∧ img.white 0 2 = false := by
  obtain ⟨img, h⟩ := imager_defined 3 [⟨2, 2, false⟩, ⟨0, 1, true⟩, ⟨2, 2, true⟩]
  obtain ⟨img', h'⟩ := imager_defined 3 [⟨2, 2, true⟩, ⟨0, 1, true⟩, ⟨2, 2, false⟩]
  refine ⟨img, img', h, h', imager_order_independent 3 _ _ _ _ h h' ?_, imager_border_black 3 _ img h ?_ 0 2 (Or.inl rfl)⟩
  · intro v
    simp only [List.mem_cons, List.not_mem_nil, or_false]
    tauto
  · decide

example := mr_image_exact 3 [⟨2, 2, false⟩, ⟨0, 1, true⟩, ⟨2, 2, true⟩] _ ⟨_, List.Perm.refl _, rfl⟩

end StlDice
