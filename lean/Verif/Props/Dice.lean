import Verif.Model.Dice
import Verif.Props.Voxelize
import Mathlib.Tactic.FieldSimp
import Mathlib.Tactic.Linarith

/-! # Dicing: coverage, geometry and invariance of the voxelization (C34, C35) -/

namespace StlDice
open Spec GoFloat BinVOX

/-! ## The layout -/

/-- **C34.** The scale is the longest side of the bounding box. -/
theorem boxScale_rat (mbb : Box ℚ) :
    mbb.Max.X - mbb.Min.X ≤ boxScale mbb ∧ mbb.Max.Y - mbb.Min.Y ≤ boxScale mbb ∧
    mbb.Max.Z - mbb.Min.Z ≤ boxScale mbb ∧
    (boxScale mbb = mbb.Max.X - mbb.Min.X ∨ boxScale mbb = mbb.Max.Y - mbb.Min.Y ∨
      boxScale mbb = mbb.Max.Z - mbb.Min.Z) := by
  have h : boxScale mbb = max (max (mbb.Max.X - mbb.Min.X) (mbb.Max.Y - mbb.Min.Y))
      (mbb.Max.Z - mbb.Min.Z) := by
    unfold boxScale
    simp only [GoFloat.lt, GoFloat.sub, decide_eq_true_eq]
    generalize mbb.Max.X - mbb.Min.X = x
    generalize mbb.Max.Y - mbb.Min.Y = y
    generalize mbb.Max.Z - mbb.Min.Z = z
    have hm : ∀ a b : ℚ, (if a < b then b else a) = max a b := by
      intro a b
      split
      · rw [max_eq_right (le_of_lt (by assumption))]
      · rw [max_eq_left (not_lt.mp (by assumption))]
    rw [hm, hm]
  rw [h]
  refine ⟨le_trans (le_max_left _ _) (le_max_left _ _), le_trans (le_max_right _ _) (le_max_left _ _),
    le_max_right _ _, ?_⟩
  rcases max_choice (max (mbb.Max.X - mbb.Min.X) (mbb.Max.Y - mbb.Min.Y)) (mbb.Max.Z - mbb.Min.Z) with e | e
  · rcases max_choice (mbb.Max.X - mbb.Min.X) (mbb.Max.Y - mbb.Min.Y) with e' | e'
    · exact Or.inl (e.trans e')
    · exact Or.inr (Or.inl (e.trans e'))
  · exact Or.inr (Or.inr e)

theorem layout_ok {F : Type} [GoFloat F] {mbb : Box F} {scale : F} {dim nx ny nz : Int}
    {L : Layout F} (h : layout mbb scale dim nx ny nz = .ok L) :
    nx ≠ 0 ∧ ny ≠ 0 ∧ nz ≠ 0 ∧ L.dimX ≠ 0 ∧ L.dimY ≠ 0 ∧ L.dimZ ≠ 0 ∧
    L.vpmm = div (ofInt dim) scale ∧ L.mmpv = div (ofInt 1) L.vpmm ∧
    L.modelX = voxelsAlong mbb.Min.X mbb.Max.X L.vpmm ∧
    L.modelY = voxelsAlong mbb.Min.Y mbb.Max.Y L.vpmm ∧
    L.modelZ = voxelsAlong mbb.Min.Z mbb.Max.Z L.vpmm ∧
    L.dimX = L.modelX.tdiv nx ∧ L.dimY = L.modelY.tdiv ny ∧ L.dimZ = L.modelZ.tdiv nz ∧
    L.subScale = mul (ofInt (dimOf L.dimX L.dimY L.dimZ)) L.mmpv := by
  unfold layout at h
  dsimp only at h
  split at h
  · cases h
  · rename_i hn
    split at h
    · cases h
    · rename_i hd
      injection h with h
      subst h
      push Not at hn hd
      exact ⟨hn.1, hn.2.1, hn.2.2, hd.1, hd.2.1, hd.2.2, rfl, rfl, rfl, rfl, rfl, rfl, rfl, rfl, rfl⟩

theorem mem_tileIndices (nx ny nz : Int) (t : Key) :
    t ∈ tileIndices nx ny nz ↔ InDims nx ny nz t := by
  unfold tileIndices InDims
  simp only [List.mem_flatMap, List.mem_map, mem_intRange]
  constructor
  · rintro ⟨z, hz, y, hy, x, hx, rfl⟩
    dsimp only
    omega
  · rintro h
    obtain ⟨X, Y, Z⟩ := t
    dsimp only at h
    exact ⟨Z, by omega, Y, by omega, X, by omega, rfl⟩

namespace Spec

/-- Voxel `g` of the whole model belongs to tile `t` when tiles are `dx × dy × dz` voxels. -/
def InTile (dx dy dz : Int) (t g : Key) : Prop :=
  t.X * dx ≤ g.X ∧ g.X < (t.X + 1) * dx ∧ t.Y * dy ≤ g.Y ∧ g.Y < (t.Y + 1) * dy ∧
    t.Z * dz ≤ g.Z ∧ g.Z < (t.Z + 1) * dz

end Spec

theorem axis_tile (d i : Int) (hd : 0 < d) (t : Int) : (t * d ≤ i ∧ i < (t + 1) * d) ↔ t = i / d := by
  constructor
  · rintro ⟨h1, h2⟩
    have a : t ≤ i / d := (Int.le_ediv_iff_mul_le hd).mpr h1
    have b : i / d < t + 1 := (Int.ediv_lt_iff_lt_mul hd).mpr h2
    omega
  · rintro rfl
    refine ⟨Int.ediv_mul_le _ (by omega), ?_⟩
    have := Int.lt_ediv_add_one_mul_self i hd
    exact this

theorem axis_count (d n i : Int) (hd : 0 < d) : (0 ≤ i / d ∧ i / d < n) ↔ (0 ≤ i ∧ i < n * d) := by
  rw [Int.ediv_lt_iff_lt_mul hd, Int.le_ediv_iff_mul_le hd, Int.zero_mul]

/-- **C34.** The tiles are disjoint, and tile membership is decided for every voxel index: an index
    lies in some tile of the job iff it is below `n·dim` in each axis, and then in exactly one. -/
theorem tiles_cover (dx dy dz nx ny nz : Int) (hx : 0 < dx) (hy : 0 < dy) (hz : 0 < dz) (g : Key) :
    ((∃ t ∈ tileIndices nx ny nz, InTile dx dy dz t g) ↔
      InDims (nx * dx) (ny * dy) (nz * dz) g) ∧
    (∀ t ∈ tileIndices nx ny nz, ∀ t' ∈ tileIndices nx ny nz,
      InTile dx dy dz t g → InTile dx dy dz t' g → t = t') := by
  have hin : ∀ t, InTile dx dy dz t g ↔ t = ⟨g.X / dx, g.Y / dy, g.Z / dz⟩ := by
    intro t
    unfold InTile
    have a := axis_tile dx g.X hx t.X
    have b := axis_tile dy g.Y hy t.Y
    have c := axis_tile dz g.Z hz t.Z
    constructor
    · rintro ⟨h1, h2, h3, h4, h5, h6⟩
      obtain ⟨X, Y, Z⟩ := t
      have a := a.mp ⟨h1, h2⟩
      have b := b.mp ⟨h3, h4⟩
      have c := c.mp ⟨h5, h6⟩
      dsimp only at a b c
      rw [a, b, c]
    · rintro rfl
      have a := a.mpr rfl
      have b := b.mpr rfl
      have c := c.mpr rfl
      exact ⟨a.1, a.2, b.1, b.2, c.1, c.2⟩
  constructor
  · simp only [hin, mem_tileIndices]
    have a := axis_count dx nx g.X hx
    have b := axis_count dy ny g.Y hy
    have c := axis_count dz nz g.Z hz
    unfold InDims
    constructor
    · rintro ⟨t, h, rfl⟩
      dsimp only at h
      have a := a.mp ⟨h.1, h.2.1⟩
      have b := b.mp ⟨h.2.2.1, h.2.2.2.1⟩
      have c := c.mp ⟨h.2.2.2.2.1, h.2.2.2.2.2⟩
      exact ⟨a.1, a.2, b.1, b.2, c.1, c.2⟩
    · rintro ⟨h1, h2, h3, h4, h5, h6⟩
      have a := a.mpr ⟨h1, h2⟩
      have b := b.mpr ⟨h3, h4⟩
      have c := c.mpr ⟨h5, h6⟩
      exact ⟨_, ⟨a.1, a.2, b.1, b.2, c.1, c.2⟩, rfl⟩
  · intro t _ t' _ h h'
    rw [(hin t).mp h, (hin t').mp h']

/-- **C34.** The tiles of a job cover all voxels of the model iff each division count divides the
    number of voxels along its axis; otherwise exactly the last `model % n` layers are dropped. -/
theorem tiles_cover_model_iff {F : Type} [GoFloat F] (mbb : Box F) (scale : F)
    (dim nx ny nz : Int) (L : Layout F) (h : layout mbb scale dim nx ny nz = .ok L)
    (hx : 0 < nx) (hy : 0 < ny) (hz : 0 < nz)
    (mx : 0 < L.modelX) (my : 0 < L.modelY) (mz : 0 < L.modelZ) :
    (0 < L.dimX ∧ 0 < L.dimY ∧ 0 < L.dimZ) ∧
    nx * L.dimX = L.modelX - L.modelX % nx ∧ ny * L.dimY = L.modelY - L.modelY % ny ∧
    nz * L.dimZ = L.modelZ - L.modelZ % nz ∧
    ((∀ g, InDims L.modelX L.modelY L.modelZ g →
        ∃ t ∈ tileIndices nx ny nz, InTile L.dimX L.dimY L.dimZ t g) ↔
      nx ∣ L.modelX ∧ ny ∣ L.modelY ∧ nz ∣ L.modelZ) := by
  obtain ⟨_, _, _, dx, dy, dz, _, _, _, _, _, ex, ey, ez, _⟩ := layout_ok h
  have tx : L.dimX = L.modelX / nx := by rw [ex, Int.tdiv_eq_ediv_of_nonneg (by omega)]
  have ty : L.dimY = L.modelY / ny := by rw [ey, Int.tdiv_eq_ediv_of_nonneg (by omega)]
  have tz : L.dimZ = L.modelZ / nz := by rw [ez, Int.tdiv_eq_ediv_of_nonneg (by omega)]
  have px : 0 < L.dimX := by
    have : 0 ≤ L.modelX / nx := Int.ediv_nonneg (by omega) (by omega)
    omega
  have py : 0 < L.dimY := by
    have : 0 ≤ L.modelY / ny := Int.ediv_nonneg (by omega) (by omega)
    omega
  have pz : 0 < L.dimZ := by
    have : 0 ≤ L.modelZ / nz := Int.ediv_nonneg (by omega) (by omega)
    omega
  have qx : nx * L.dimX = L.modelX - L.modelX % nx := by
    rw [tx]; have := Int.mul_ediv_add_emod L.modelX nx; omega
  have qy : ny * L.dimY = L.modelY - L.modelY % ny := by
    rw [ty]; have := Int.mul_ediv_add_emod L.modelY ny; omega
  have qz : nz * L.dimZ = L.modelZ - L.modelZ % nz := by
    rw [tz]; have := Int.mul_ediv_add_emod L.modelZ nz; omega
  refine ⟨⟨px, py, pz⟩, qx, qy, qz, ?_⟩
  have rx := Int.emod_nonneg L.modelX (show nx ≠ 0 by omega)
  have ry := Int.emod_nonneg L.modelY (show ny ≠ 0 by omega)
  have rz := Int.emod_nonneg L.modelZ (show nz ≠ 0 by omega)
  constructor
  · intro hc
    have hg := (tiles_cover L.dimX L.dimY L.dimZ nx ny nz px py pz
      ⟨L.modelX - 1, L.modelY - 1, L.modelZ - 1⟩).1.mp (hc _ (by unfold InDims; dsimp only; omega))
    unfold InDims at hg
    dsimp only at hg
    refine ⟨Int.dvd_of_emod_eq_zero (by omega), Int.dvd_of_emod_eq_zero (by omega),
      Int.dvd_of_emod_eq_zero (by omega)⟩
  · rintro ⟨h1, h2, h3⟩ g hg
    apply (tiles_cover L.dimX L.dimY L.dimZ nx ny nz px py pz g).1.mpr
    rw [qx, qy, qz, Int.emod_eq_zero_of_dvd h1, Int.emod_eq_zero_of_dvd h2, Int.emod_eq_zero_of_dvd h3]
    unfold InDims at hg ⊢
    omega

theorem dimOf_pos {a b c : Int} (ha : 0 < a) : 0 < dimOf a b c := by
  unfold dimOf
  dsimp only
  split_ifs <;> omega

/-- **C34.** In exact arithmetic every tile has the model's voxels per millimetre, and voxel `l` of
    tile `t` is at the world position of voxel `t·dim + l` of the whole model. -/
theorem tile_geometry (mbb : Box ℚ) (scale : ℚ) (dim nx ny nz : Int) (L : Layout ℚ)
    (h : layout mbb scale dim nx ny nz = .ok L) (hs : 0 < scale) (hd : 0 < dim)
    (px : 0 < L.dimX) (t l : Key) :
    (tileModel L mbb t).VoxelsPerMM = dim / scale ∧
    (tileModel L mbb t).TX + l.X * (1 / (tileModel L mbb t).VoxelsPerMM)
      = mbb.Min.X + (t.X * L.dimX + l.X) * (scale / dim) ∧
    (tileModel L mbb t).TY + l.Y * (1 / (tileModel L mbb t).VoxelsPerMM)
      = mbb.Min.Y + (t.Y * L.dimY + l.Y) * (scale / dim) ∧
    (tileModel L mbb t).TZ + l.Z * (1 / (tileModel L mbb t).VoxelsPerMM)
      = mbb.Min.Z + (t.Z * L.dimZ + l.Z) * (scale / dim) := by
  obtain ⟨_, _, _, _, _, _, ev, em, _, _, _, _, _, _, es⟩ := layout_ok h
  have ev' : L.vpmm = dim / scale := ev
  have em' : L.mmpv = ((1 : Int) : ℚ) / L.vpmm := em
  have es' : L.subScale = ((dimOf L.dimX L.dimY L.dimZ : Int) : ℚ) * L.mmpv := es
  have hdq : (0 : ℚ) < dim := by exact_mod_cast hd
  have hvp : 0 < L.vpmm := by rw [ev']; positivity
  have hm : L.mmpv = scale / dim := by
    rw [em', ev']; push_cast; rw [one_div_div]
  have hmp : 0 < L.mmpv := by rw [hm]; positivity
  have hmax : (0 : ℚ) < (dimOf L.dimX L.dimY L.dimZ : Int) := by
    exact_mod_cast dimOf_pos px
  have hv : (tileModel L mbb t).VoxelsPerMM = dim / scale := by
    have hsub : 0 < L.subScale := by rw [es']; exact mul_pos hmax hmp
    unfold BinVOX.VoxelsPerMM vpmmOf
    have hle : ¬ (GoFloat.le (tileModel L mbb t).Scale (ofInt 0) = true) := by
      show ¬ (decide (L.subScale ≤ ((0 : Int) : ℚ)) = true)
      rw [decide_eq_true_eq]; push_cast; linarith
    rw [if_neg hle]
    show ((dimOf L.dimX L.dimY L.dimZ : Int) : ℚ) / L.subScale = dim / scale
    rw [es', hm]
    field_simp
  refine ⟨hv, ?_, ?_, ?_⟩
  · rw [hv, one_div_div]
    show mbb.Min.X + ((t.X * L.dimX : Int) : ℚ) * L.mmpv + _ = _
    rw [hm]; push_cast; ring
  · rw [hv, one_div_div]
    show mbb.Min.Y + ((t.Y * L.dimY : Int) : ℚ) * L.mmpv + _ = _
    rw [hm]; push_cast; ring
  · rw [hv, one_div_div]
    show mbb.Min.Z + ((t.Z * L.dimZ : Int) : ℚ) * L.mmpv + _ = _
    rw [hm]; push_cast; ring

/-- A 10 mm cube at 10 voxels diced into 3×3×3 tiles: tiles of 3 voxels, the last layer is lost. -/
example : ∃ L : Layout ℚ, layout (⟨⟨0, 0, 0⟩, ⟨10, 10, 10⟩⟩ : Box ℚ) 10 10 3 3 3 = .ok L ∧
    L.modelX = 10 ∧ L.dimX = 3 ∧ L.dimY = 3 ∧ L.dimZ = 3 ∧ ¬ (3 : Int) ∣ L.modelX :=
  ⟨⟨1, 1, 10, 10, 10, 3, 3, 3, 3⟩, by decide +kernel, rfl, rfl, rfl, rfl, by decide⟩

/-! ## The rasteriser commutes with translations -/

theorem bresLoop_shift (dx dy a c : Int) (n : Nat) : ∀ x y e,
    bresLoop dx dy n (x + a) (y + c) e = (bresLoop dx dy n x y e).map fun p => (p.1 + a, p.2 + c) := by
  induction n with
  | zero => intros; rfl
  | succ n ih =>
    intro x y e
    unfold bresLoop
    dsimp only
    rw [List.map_cons]
    refine congrArg _ ?_
    split
    · rw [show x + a + 1 = x + 1 + a by omega, show y + c + 1 = y + 1 + c by omega]
      exact ih _ _ _
    · rw [show x + a + 1 = x + 1 + a by omega]
      exact ih _ _ _

theorem firstOctant_shift (x1 y1 x2 y2 a c : Int) :
    firstOctant (x1 + a) (y1 + c) (x2 + a) (y2 + c) =
      (firstOctant x1 y1 x2 y2).map fun p => (p.1 + a, p.2 + c) := by
  unfold firstOctant
  rw [show x2 + a - (x1 + a) = x2 - x1 by omega, show y2 + c - (y1 + c) = y2 - y1 by omega]
  exact bresLoop_shift _ _ _ _ _ _ _ _

theorem rasterLine_shift (x1 y1 x2 y2 a c : Int) :
    rasterLine (x1 + a) (y1 + c) (x2 + a) (y2 + c) =
      (rasterLine x1 y1 x2 y2).map fun p => (p.1 + a, p.2 + c) := by
  unfold rasterLine
  dsimp only
  rw [show x2 + a - (x1 + a) = x2 - x1 by omega, show y2 + c - (y1 + c) = y2 - y1 by omega]
  have neg : ∀ u v : Int, -(u + v) = -u + -v := by intros; omega
  simp only [neg]
  split_ifs
  · exact firstOctant_shift _ _ _ _ _ _
  · rw [firstOctant_shift, List.map_map, List.map_map]; rfl
  · rw [firstOctant_shift, List.map_map, List.map_map]
    apply List.map_congr_left
    intro p _
    simp only [Function.comp_def]; ext <;> simp only <;> omega
  · rw [firstOctant_shift, List.map_map, List.map_map]
    apply List.map_congr_left
    intro p _
    simp only [Function.comp_def]; ext <;> simp only <;> omega
  · rw [firstOctant_shift, List.map_map, List.map_map]
    apply List.map_congr_left
    intro p _
    simp only [Function.comp_def]; ext <;> simp only <;> omega
  · rw [firstOctant_shift, List.map_map, List.map_map]
    apply List.map_congr_left
    intro p _
    simp only [Function.comp_def]; ext <;> simp only <;> omega
  · rw [firstOctant_shift, List.map_map, List.map_map]
    apply List.map_congr_left
    intro p _
    simp only [Function.comp_def]; ext <;> simp only <;> omega
  · rw [firstOctant_shift, List.map_map, List.map_map]
    apply List.map_congr_left
    intro p _
    simp only [Function.comp_def]; ext <;> simp only <;> omega

/-! ## Voxelizing a region that lies on the grid of a larger one -/

/-- `b'` is a sub-box of `b` on the same grid: same pitch, origin moved by `(ox,oy,oz)` voxels. -/
structure SubGrid (b b' : BinVOX ℚ) (ox oy oz : Int) : Prop where
  pitch : b'.VoxelsPerMM = b.VoxelsPerMM
  pos : 0 < b.VoxelsPerMM
  tx : b'.TX = b.TX + ox * (1 / b.VoxelsPerMM)
  ty : b'.TY = b.TY + oy * (1 / b.VoxelsPerMM)
  tz : b'.TZ = b.TZ + oz * (1 / b.VoxelsPerMM)

theorem gridCoord_rat (v c t : ℚ) : gridCoord v c t = ⌊v * (c - t)⌋ := by
  unfold gridCoord
  show (if 0 ≤ ((⌊v * (c - t)⌋ : Int) : ℚ) then ⌊((⌊v * (c - t)⌋ : Int) : ℚ)⌋
    else ⌈((⌊v * (c - t)⌋ : Int) : ℚ)⌉) = _
  split <;> simp

theorem gridCoord_shift (v c t : ℚ) (hv : 0 < v) (o : Int) :
    gridCoord v c (t + o * (1 / v)) = gridCoord v c t + -o := by
  rw [gridCoord_rat, gridCoord_rat]
  have : v * (c - (t + o * (1 / v))) = v * (c - t) + ((-o : Int) : ℚ) := by
    push_cast; field_simp; ring
  rw [this, Int.floor_add_intCast]

theorem pairPoints_sub (b b' : BinVOX ℚ) (ox oy oz : Int) (h : SubGrid b b' ox oy oz) (q : Pair ℚ) :
    pairPoints b' b'.VoxelsPerMM q =
      (pairPoints b b.VoxelsPerMM q).map fun p => (p.1 + -ox, p.2 + -oy) := by
  unfold pairPoints
  rw [h.pitch, h.tx, h.ty]
  rw [gridCoord_shift _ _ _ h.pos, gridCoord_shift _ _ _ h.pos, gridCoord_shift _ _ _ h.pos,
    gridCoord_shift _ _ _ h.pos, rasterLine_shift]

theorem sliceHeight_sub (b b' : BinVOX ℚ) (ox oy oz : Int) (h : SubGrid b b' ox oy oz) (zi : Int) :
    sliceHeight b' zi = sliceHeight b (zi + oz) := by
  show b'.TZ + (1/2 + (zi : ℚ)) * (((1 : Int) : ℚ) / b'.VoxelsPerMM)
    = b.TZ + (1/2 + ((zi + oz : Int) : ℚ)) * (((1 : Int) : ℚ) / b.VoxelsPerMM)
  rw [h.pitch, h.tz]
  push_cast; ring

theorem touches_sub (b b' : BinVOX ℚ) (ox oy oz : Int) (h : SubGrid b b' ox oy oz) (m : Mesh ℚ)
    (zi y x : Int) (p : Nat) (hy : 0 ≤ y ∧ y < b'.NY) (hY : 0 ≤ y + oy ∧ y + oy < b.NY) :
    Touches b' m zi y p x ↔ Touches b m (zi + oz) (y + oy) p (x + ox) := by
  unfold Touches
  rw [sliceHeight_sub b b' ox oy oz h]
  have hm : ∀ q, (x, y) ∈ pairPoints b' b'.VoxelsPerMM q ↔ (x + ox, y + oy) ∈ pairPoints b b.VoxelsPerMM q := by
    intro q
    rw [pairPoints_sub b b' ox oy oz h, List.mem_map]
    constructor
    · rintro ⟨⟨a, c⟩, hp, e⟩
      injection e with e1 e2
      dsimp only at e1 e2
      rw [show x + ox = a by omega, show y + oy = c by omega]
      exact hp
    · intro hp
      refine ⟨_, hp, ?_⟩
      ext <;> dsimp only <;> omega
  simp only [hm]
  constructor
  · rintro ⟨a, _, _, c⟩; exact ⟨a, hY.1, hY.2, c⟩
  · rintro ⟨a, _, _, c⟩; exact ⟨a, hy.1, hy.2, c⟩

theorem crossings_sub (tris : List Nat) (T T' : Nat → Int → Prop) (kind : Nat → Int) (o : Int)
    (h : ∀ p x, T' p x ↔ T p (x + o)) (c x : Int) :
    crossings tris T' kind c x = crossings tris T kind c (x + o) := by
  unfold crossings
  congr 1
  apply List.filter_congr
  intro p _
  have : FirstTouch T' p x ↔ FirstTouch T p (x + o) := by
    unfold FirstTouch
    rw [h]
    constructor
    · rintro ⟨a, b⟩
      refine ⟨a, ?_⟩
      intro x' hx' ht
      have := b (x' - o) (by omega)
      rw [h, show x' - o + o = x' by omega] at this
      exact this ht
    · rintro ⟨a, b⟩
      refine ⟨a, ?_⟩
      intro x' hx' ht
      rw [h] at ht
      exact b _ (by omega) ht
  exact decide_eq_decide.mpr (and_congr this Iff.rfl)

theorem inside_sub (tris : List Nat) (T T' : Nat → Int → Prop) (kind : Nat → Int) (o : Int)
    (h : ∀ p x, T' p x ↔ T p (x + o)) (x : Int) :
    Inside tris T' kind x ↔ Inside tris T kind (x + o) := by
  unfold Inside Enters Leaves
  simp only [crossings_sub tris T T' kind o h]
  constructor
  · rintro ⟨x0, h0, he, hl⟩
    refine ⟨x0 + o, by omega, he, ?_⟩
    intro x1 h1 h2
    have := hl (x1 - o) (by omega) (by omega)
    rw [show x1 - o + o = x1 by omega] at this
    exact this
  · rintro ⟨x0, h0, he, hl⟩
    refine ⟨x0 - o, by omega, ?_, ?_⟩
    · rw [show x0 - o + o = x0 by omega]; exact he
    · intro x1 h1 h2
      exact hl (x1 + o) (by omega) (by omega)

/-- **C35.** In exact arithmetic, voxelizing a sub-box on the grid of a larger box gives, under every
    schedule of both runs and for every mesh, exactly the voxels of the larger voxelization that lie in
    the sub-box. -/
theorem voxelize_subgrid (b b' out out' : BinVOX ℚ) (ox oy oz : Int) (h : SubGrid b b' ox oy oz)
    (m : Mesh ℚ) (hr : VoxelizeRun b m (.ok out)) (hr' : VoxelizeRun b' m (.ok out'))
    (k : Key) (hk : InDims b'.NX b'.NY b'.NZ k)
    (hK : InDims b.NX b.NY b.NZ (k.shift ox oy oz)) :
    out'.white.has k = true ↔ out.white.has (k.shift ox oy oz) = true := by
  have nz : ∀ c o : BinVOX ℚ, VoxelizeRun c m (.ok o) → ¬ zeroDim c := by
    intro c o hc hz
    unfold VoxelizeRun at hc
    rw [if_pos hz] at hc
    cases hc
  obtain ⟨c, hc, _, _, hh⟩ := voxelize_exact b m (nz _ _ hr) _ hr
  injection hc with hc; subst hc
  obtain ⟨c, hc, _, _, hh'⟩ := voxelize_exact b' m (nz _ _ hr') _ hr'
  injection hc with hc; subst hc
  rw [hh, hh']
  unfold InDims Key.shift at *
  dsimp only at hK ⊢
  have hT : ∀ p x, Touches b' m k.Z k.Y p x ↔ Touches b m (k.Z + oz) (k.Y + oy) p (x + ox) :=
    fun p x => touches_sub b b' ox oy oz h m k.Z k.Y x p (by omega) (by omega)
  unfold Filled
  dsimp only
  rw [inside_sub m.Triangles (Touches b m (k.Z + oz) (k.Y + oy)) (Touches b' m k.Z k.Y)
    (crossing m) ox hT]
  simp only [hT]
  have hex : (∃ x' p, k.X ≤ x' ∧ Touches b m (k.Z + oz) (k.Y + oy) p (x' + ox)) ↔
      (∃ x' p, k.X + ox ≤ x' ∧ Touches b m (k.Z + oz) (k.Y + oy) p x') := by
    constructor
    · rintro ⟨x', p, h1, h2⟩; exact ⟨x' + ox, p, by omega, h2⟩
    · rintro ⟨x', p, h1, h2⟩
      refine ⟨x' - ox, p, by omega, ?_⟩
      rw [show x' - ox + ox = x' by omega]; exact h2
  rw [hex]
  constructor
  · rintro ⟨_, _, _, h4⟩
    refine ⟨by omega, by omega, by omega, ?_⟩
    rcases h4 with h4 | ⟨_, h5, h6⟩
    · exact Or.inl h4
    · exact Or.inr ⟨by omega, h5, h6⟩
  · rintro ⟨_, _, _, h4⟩
    refine ⟨by omega, by omega, by omega, ?_⟩
    rcases h4 with h4 | ⟨_, h5, h6⟩
    · exact Or.inl h4
    · exact Or.inr ⟨by omega, h5, h6⟩

/-- The whole diced region as one model: `nx·dimX × ny·dimY × nz·dimZ` voxels at the model's
    corner, with the scale that gives it the model's pitch. -/
def wholeModel (L : Layout ℚ) (mbb : Box ℚ) (nx ny nz : Int) : BinVOX ℚ where
  NX := nx * L.dimX
  NY := ny * L.dimY
  NZ := nz * L.dimZ
  TX := mbb.Min.X
  TY := mbb.Min.Y
  TZ := mbb.Min.Z
  Scale := (dimOf (nx * L.dimX) (ny * L.dimY) (nz * L.dimZ) : Int) / L.vpmm
  WhiteVoxels := none
  ColorVoxels := none

theorem tile_subGrid (mbb : Box ℚ) (scale : ℚ) (dim nx ny nz : Int) (L : Layout ℚ)
    (h : layout mbb scale dim nx ny nz = .ok L) (hs : 0 < scale) (hd : 0 < dim)
    (px : 0 < L.dimX) (hnx : 0 < nx) (t : Key) :
    SubGrid (wholeModel L mbb nx ny nz) (tileModel L mbb t) (t.X * L.dimX) (t.Y * L.dimY)
      (t.Z * L.dimZ) := by
  have hg := tile_geometry mbb scale dim nx ny nz L h hs hd px t ⟨0, 0, 0⟩
  obtain ⟨_, _, _, _, _, _, ev, em, _⟩ := layout_ok h
  have ev' : L.vpmm = dim / scale := ev
  have hdq : (0 : ℚ) < dim := by exact_mod_cast hd
  have hvp : 0 < L.vpmm := by rw [ev']; positivity
  have hmax : (0 : ℚ) < (dimOf (nx * L.dimX) (ny * L.dimY) (nz * L.dimZ) : Int) := by
    exact_mod_cast dimOf_pos (Int.mul_pos hnx px)
  have hw : (wholeModel L mbb nx ny nz).VoxelsPerMM = L.vpmm := by
    unfold BinVOX.VoxelsPerMM vpmmOf
    have hle : ¬ (GoFloat.le (wholeModel L mbb nx ny nz).Scale (ofInt 0) = true) := by
      show ¬ (decide (((dimOf (nx * L.dimX) (ny * L.dimY) (nz * L.dimZ) : Int) : ℚ) / L.vpmm ≤
        ((0 : Int) : ℚ)) = true)
      rw [decide_eq_true_eq, not_le]
      push_cast
      exact div_pos hmax hvp
    rw [if_neg hle]
    show ((dimOf (nx * L.dimX) (ny * L.dimY) (nz * L.dimZ) : Int) : ℚ) /
      (((dimOf (nx * L.dimX) (ny * L.dimY) (nz * L.dimZ) : Int) : ℚ) / L.vpmm) = L.vpmm
    field_simp
  have hm : L.mmpv = 1 / L.vpmm := by
    have : L.mmpv = ((1 : Int) : ℚ) / L.vpmm := em
    rw [this]; push_cast; rfl
  refine ⟨?_, ?_, ?_, ?_, ?_⟩
  · rw [hw, hg.1, ev']
  · rw [hw]; exact hvp
  · rw [hw, ← hm]; rfl
  · rw [hw, ← hm]; rfl
  · rw [hw, ← hm]; rfl

/-- **C35.** For every job (exact arithmetic), mesh and schedule: the voxels tile `t` stores inside
    its own dimensions are exactly the voxels the undiced model stores in that tile's box. -/
theorem dice_same_voxels (mbb : Box ℚ) (scale : ℚ) (dim nx ny nz : Int) (L : Layout ℚ)
    (h : layout mbb scale dim nx ny nz = .ok L) (hs : 0 < scale) (hd : 0 < dim)
    (px : 0 < L.dimX) (py : 0 < L.dimY) (pz : 0 < L.dimZ) (hnx : 0 < nx)
    (mesh : Mesh ℚ) (whole : BinVOX ℚ)
    (hw : VoxelizeRun (wholeModel L mbb nx ny nz) mesh (.ok whole))
    (t : Key) (ht : t ∈ tileIndices nx ny nz) (tile : BinVOX ℚ)
    (htile : VoxelizeRun (tileModel L mbb t) mesh (.ok tile))
    (l : Key) (hl : InDims L.dimX L.dimY L.dimZ l) :
    tile.white.has l = true ↔
      whole.white.has (l.shift (t.X * L.dimX) (t.Y * L.dimY) (t.Z * L.dimZ)) = true := by
  refine voxelize_subgrid _ _ whole tile _ _ _
    (tile_subGrid mbb scale dim nx ny nz L h hs hd px hnx t) mesh hw htile l hl ?_
  rw [mem_tileIndices] at ht
  refine (tiles_cover L.dimX L.dimY L.dimZ nx ny nz px py pz _).1.mp
    ⟨t, (mem_tileIndices _ _ _ _).mpr ht, ?_⟩
  unfold InTile Key.shift
  unfold InDims at hl
  have e : ∀ a c : Int, (a + 1) * c = a * c + c := by intros; ring
  dsimp only
  rw [e, e, e]
  omega

/-! ## Examples: the two walls, diced -/

/-- A box of 4 mm. -/
def wallBox : Box ℚ := ⟨⟨0, 0, 0⟩, ⟨4, 4, 4⟩⟩

/-- 4 voxels along it, two tiles along x. -/
def wallLayout : Layout ℚ := ⟨1, 1, 4, 4, 4, 2, 4, 4, 4⟩

theorem wall_layout : layout wallBox 4 4 2 1 1 = .ok wallLayout := by decide +kernel

theorem wall_tiles (t : Key) : ∃ vox, VoxelizeRun (tileModel wallLayout wallBox t) wallMesh (.ok vox) := by
  obtain ⟨out, h⟩ := (voxelize_defined (tileModel wallLayout wallBox t) wallMesh).1
  have hz : ¬ zeroDim (tileModel wallLayout wallBox t) := by
    show ¬ ((2 : Int) = 0 ∨ (4 : Int) = 0 ∨ (4 : Int) = 0)
    decide
  obtain ⟨b', hb, _⟩ := voxelize_exact _ _ hz _ h
  exact ⟨b', hb ▸ h⟩

theorem wall_whole : ∃ whole, VoxelizeRun (wholeModel wallLayout wallBox 2 1 1) wallMesh (.ok whole) := by
  obtain ⟨out, h⟩ := (voxelize_defined (wholeModel wallLayout wallBox 2 1 1) wallMesh).1
  obtain ⟨b', hb, _⟩ := voxelize_exact _ _ (by decide) _ h
  exact ⟨b', hb ▸ h⟩

example := tiles_cover 3 3 3 2 2 2 (by decide) (by decide) (by decide) ⟨5, 0, 0⟩
example := tiles_cover_model_iff wallBox 4 4 2 1 1 wallLayout wall_layout (by decide) (by decide) (by decide) (by decide) (by decide) (by decide)
example := tile_geometry wallBox 4 4 2 1 1 wallLayout wall_layout (by decide +kernel) (by decide) (by decide) ⟨1, 0, 0⟩ ⟨1, 2, 3⟩

/-- `dice_same_voxels` and `voxelize_subgrid` on the second tile: the cell between the walls is there. -/
example : ∃ whole tile, VoxelizeRun (wholeModel wallLayout wallBox 2 1 1) wallMesh (.ok whole) ∧
    VoxelizeRun (tileModel wallLayout wallBox ⟨1, 0, 0⟩) wallMesh (.ok tile) ∧
    (tile.white.has ⟨0, 1, 1⟩ = true ↔ whole.white.has ⟨2, 1, 1⟩ = true) := by
  obtain ⟨whole, hw⟩ := wall_whole
  obtain ⟨tile, ht⟩ := wall_tiles ⟨1, 0, 0⟩
  exact ⟨whole, tile, hw, ht, dice_same_voxels wallBox 4 4 2 1 1 wallLayout wall_layout (by decide +kernel) (by decide) (by decide) (by decide)
    (by decide) (by decide) wallMesh whole hw ⟨1, 0, 0⟩ (by decide) tile ht ⟨0, 1, 1⟩ (by unfold InDims; decide)⟩

example : ∃ whole tile, VoxelizeRun (wholeModel wallLayout wallBox 2 1 1) wallMesh (.ok whole) ∧
    VoxelizeRun (tileModel wallLayout wallBox ⟨1, 0, 0⟩) wallMesh (.ok tile) ∧
    SubGrid (wholeModel wallLayout wallBox 2 1 1) (tileModel wallLayout wallBox ⟨1, 0, 0⟩) 2 0 0 ∧
    (tile.white.has ⟨0, 1, 1⟩ = true ↔ whole.white.has ((⟨0, 1, 1⟩ : Key).shift 2 0 0) = true) := by
  obtain ⟨whole, hw⟩ := wall_whole
  obtain ⟨tile, ht⟩ := wall_tiles ⟨1, 0, 0⟩
  have hsub : SubGrid (wholeModel wallLayout wallBox 2 1 1) (tileModel wallLayout wallBox ⟨1, 0, 0⟩) 2 0 0 := by
    constructor <;> decide +kernel
  exact ⟨whole, tile, hw, ht, hsub, voxelize_subgrid _ _ whole tile 2 0 0 hsub wallMesh hw ht ⟨0, 1, 1⟩ (by unfold InDims; decide)
    (by unfold InDims; decide)⟩

end StlDice
