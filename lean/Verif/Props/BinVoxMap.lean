import Verif.Model.BinVox
import Verif.Lemmas.GoMap
import Mathlib.Tactic.FieldSimp
import Mathlib.Tactic.Positivity
import Mathlib.Tactic.Linarith
import Mathlib.Tactic.NormNum

/-! # C01, C02: the BinVOX structure -/

namespace StlDice
variable {F : Type}

/-- A call that changes a model. -/
inductive VoxOp (F : Type) where
  | add (k : Key)
  | addColor (k : Key) (c : Color F)

/-- The Go call. -/
def VoxOp.call (b : BinVOX F) : VoxOp F → Res (BinVOX F)
  | .add k => b.Add k.X k.Y k.Z
  | .addColor k c => b.AddColor k.X k.Y k.Z c

/-- The state after the call; a panic (recovered by the caller) leaves the model alone. -/
def VoxOp.after (b : BinVOX F) (op : VoxOp F) : BinVOX F :=
  match op.call b with
  | .ok b' => b'
  | _ => b

namespace Spec
/-- Specification: the colour given by the last `AddColor` at `k`, if any. -/
def lastColor : List (VoxOp F) → Key → Option (Color F)
  | [], _ => none
  | op :: ops, k =>
    match lastColor ops k with
    | some c => some c
    | none => match op with
      | .addColor k' c => if k' = k then some c else none
      | .add _ => none

/-- Specification: `k` was added with `Add`. -/
def added (ops : List (VoxOp F)) (k : Key) : Bool :=
  ops.any fun op => match op with
    | .add k' => decide (k' = k)
    | .addColor _ _ => false
end Spec
open Spec

theorem after_white (b : BinVOX F) (op : VoxOp F) :
    (op.after b).white = match op with
      | .add k => if b.WhiteVoxels.isSome then b.white.set k () else b.white
      | .addColor _ _ => b.white := by
  cases op with
  | add k =>
    cases h : b.WhiteVoxels <;>
      simp [VoxOp.after, VoxOp.call, BinVOX.Add, h, BinVOX.white, mapOf]
  | addColor k c =>
    cases h : b.ColorVoxels <;>
      simp [VoxOp.after, VoxOp.call, BinVOX.AddColor, h, BinVOX.white]

theorem after_color (b : BinVOX F) (op : VoxOp F) :
    (op.after b).color = match op with
      | .add _ => b.color
      | .addColor k c => if b.ColorVoxels.isSome then b.color.set k c else b.color := by
  cases op with
  | add k =>
    cases h : b.WhiteVoxels <;>
      simp [VoxOp.after, VoxOp.call, BinVOX.Add, h, BinVOX.color]
  | addColor k c =>
    cases h : b.ColorVoxels <;>
      simp [VoxOp.after, VoxOp.call, BinVOX.AddColor, h, BinVOX.color, mapOf]

theorem after_isSome (b : BinVOX F) (op : VoxOp F) :
    (op.after b).WhiteVoxels.isSome = b.WhiteVoxels.isSome ∧
    (op.after b).ColorVoxels.isSome = b.ColorVoxels.isSome := by
  cases op with
  | add k =>
    cases h : b.WhiteVoxels <;>
      simp [VoxOp.after, VoxOp.call, BinVOX.Add, h]
  | addColor k c =>
    cases h : b.ColorVoxels <;>
      simp [VoxOp.after, VoxOp.call, BinVOX.AddColor, h]

/-- C01, general form: any model (whatever maps it already has), any sequence of calls. -/
theorem voxops_get [GoFloat F] (b : BinVOX F) (ops : List (VoxOp F)) (k : Key) :
    (ops.foldl VoxOp.after b).Get k.X k.Y k.Z =
      if b.white.has k || (b.WhiteVoxels.isSome && added ops k) then some BinVOX.White
      else if b.ColorVoxels.isSome then (lastColor ops k).or (b.color.get k)
      else b.color.get k := by
  induction ops generalizing b with
  | nil =>
    simp only [List.foldl_nil, BinVOX.Get, added, List.any_nil, Bool.and_false, Bool.or_false,
      lastColor, Option.none_or, ite_self, GoMap.has]
    cases b.color.get k <;> rfl
  | cons op ops ih =>
    rw [List.foldl_cons, ih, after_white, after_color, (after_isSome b op).1, (after_isSome b op).2]
    cases op with
    | add k' =>
      have ha : added (VoxOp.add k' :: ops) k = (decide (k' = k) || added ops k) := rfl
      have hl : lastColor (VoxOp.add k' :: ops) k = lastColor ops k := by
        simp only [lastColor]; cases lastColor ops k <;> rfl
      rw [hl, ha]
      by_cases hs : b.WhiteVoxels.isSome = true
      · simp only [hs, if_true, GoMap.has_set, Bool.true_and]
        congr 2
        cases decide (k' = k) <;> cases GoMap.has b.white k <;> rfl
      · simp [hs]
    | addColor k' c =>
      have ha : added (VoxOp.addColor k' c :: ops) k = added ops k := rfl
      rw [ha]
      simp only [lastColor]
      by_cases hs : b.ColorVoxels.isSome = true
      · simp only [hs, if_true, GoMap.get_set]
        cases lastColor ops k with
        | some c' => simp
        | none => by_cases hk : k' = k <;> simp [hk]
      · simp [hs]

/-- C01: on a white model returned by `New`, `Get` reports exactly the positions added with `Add`,
    as white; `AddColor` panics and stores nothing. -/
theorem new_white_get [GoFloat F] (nx ny nz : Int) (tx ty tz s : F) (ops : List (VoxOp F)) (k : Key) :
    (added ops k = true → (ops.foldl VoxOp.after (BinVOX.New nx ny nz tx ty tz s false)).Get k.X k.Y k.Z =
      some BinVOX.White) ∧
    (added ops k = false → (ops.foldl VoxOp.after (BinVOX.New nx ny nz tx ty tz s false)).Get k.X k.Y k.Z =
      none) := by
  constructor <;> intro h <;> rw [voxops_get] <;>
    simp [BinVOX.New, BinVOX.white, BinVOX.color, mapOf, h]

/-- C01: on a full-colour model returned by `New`, `Get` returns the colour of the last `AddColor`
    at the position, and nothing elsewhere; `Add` panics and stores nothing. -/
theorem new_color_get [GoFloat F] (nx ny nz : Int) (tx ty tz s : F) (ops : List (VoxOp F)) (k : Key) :
    (ops.foldl VoxOp.after (BinVOX.New nx ny nz tx ty tz s true)).Get k.X k.Y k.Z =
      lastColor ops k := by
  rw [voxops_get]
  simp [BinVOX.New, BinVOX.white, BinVOX.color, mapOf]

/-- C01: which calls panic, at any point of any history: exactly `Add` without a white map and
    `AddColor` without a colour map; nothing else panics and nothing returns an error. -/
theorem voxop_panics (b : BinVOX F) (ops : List (VoxOp F)) (op : VoxOp F) :
    (op.call (ops.foldl VoxOp.after b) = .panic ↔ match op with
      | .add _ => b.WhiteVoxels = none
      | .addColor _ _ => b.ColorVoxels = none) ∧
    op.call (ops.foldl VoxOp.after b) ≠ .err := by
  have hs : (ops.foldl VoxOp.after b).WhiteVoxels.isSome = b.WhiteVoxels.isSome ∧
      (ops.foldl VoxOp.after b).ColorVoxels.isSome = b.ColorVoxels.isSome := by
    induction ops generalizing b with
    | nil => simp
    | cons o ops ih =>
      rw [List.foldl_cons, (ih _).1, (ih _).2]
      exact after_isSome b o
  generalize ops.foldl VoxOp.after b = b' at hs
  cases op with
  | add k =>
    cases h : b'.WhiteVoxels <;> cases h2 : b.WhiteVoxels <;>
      simp [VoxOp.call, BinVOX.Add, h, h2] at hs ⊢
  | addColor k c =>
    cases h : b'.ColorVoxels <;> cases h2 : b.ColorVoxels <;>
      simp [VoxOp.call, BinVOX.AddColor, h, h2] at hs ⊢

/-- C01: no call changes dimensions, translation or scale. -/
theorem voxops_header (b : BinVOX F) (ops : List (VoxOp F)) :
    let b' := ops.foldl VoxOp.after b
    b'.NX = b.NX ∧ b'.NY = b.NY ∧ b'.NZ = b.NZ ∧ b'.TX = b.TX ∧ b'.TY = b.TY ∧ b'.TZ = b.TZ ∧
      b'.Scale = b.Scale := by
  induction ops generalizing b with
  | nil => simp
  | cons op ops ih =>
    simp only [List.foldl_cons] at *
    have h1 : (op.after b).NX = b.NX ∧ (op.after b).NY = b.NY ∧ (op.after b).NZ = b.NZ ∧
        (op.after b).TX = b.TX ∧ (op.after b).TY = b.TY ∧ (op.after b).TZ = b.TZ ∧
        (op.after b).Scale = b.Scale := by
      cases op with
      | add k => cases h : b.WhiteVoxels <;> simp [VoxOp.after, VoxOp.call, BinVOX.Add, h]
      | addColor k c => cases h : b.ColorVoxels <;> simp [VoxOp.after, VoxOp.call, BinVOX.AddColor, h]
    have h2 := ih (op.after b)
    rw [h1.1, h1.2.1, h1.2.2.1, h1.2.2.2.1, h1.2.2.2.2.1, h1.2.2.2.2.2.1, h1.2.2.2.2.2.2] at h2
    exact h2

/-- A history with overwriting, evaluated. -/
example : (([.addColor ⟨1,2,3⟩ ⟨1,0,0,1⟩, .addColor ⟨1,2,3⟩ ⟨0,1,0,1⟩, .add ⟨1,2,3⟩] : List (VoxOp ℚ)).foldl
    VoxOp.after (BinVOX.New 4 4 4 0 0 0 1 true)).Get 1 2 3 = some ⟨0,1,0,1⟩ := by
  have h := new_color_get (F := ℚ) 4 4 4 0 0 0 1
    [.addColor ⟨1,2,3⟩ ⟨1,0,0,1⟩, .addColor ⟨1,2,3⟩ ⟨0,1,0,1⟩, .add ⟨1,2,3⟩] ⟨1,2,3⟩
  rw [h]; rfl

/-! ## C02 -/

/-- C02: `Dim` is the largest dimension. -/
theorem dim_is_max (b : BinVOX F) :
    (b.NX ≤ b.Dim ∧ b.NY ≤ b.Dim ∧ b.NZ ≤ b.Dim) ∧ (b.Dim = b.NX ∨ b.Dim = b.NY ∨ b.Dim = b.NZ) := by
  unfold BinVOX.Dim BinVOX.dimOf
  dsimp only
  split <;> split <;> omega

/-- C02: voxels per mm. -/
theorem voxelsPerMM_eq (b : BinVOX ℚ) :
    (0 < b.Scale → b.VoxelsPerMM = (b.Dim : ℚ) / b.Scale) ∧ (b.Scale ≤ 0 → b.VoxelsPerMM = 1) := by
  constructor <;> intro h
  · have : ¬ b.Scale ≤ 0 := not_le.mpr h
    simp [BinVOX.VoxelsPerMM, BinVOX.vpmmOf, GoFloat.le, GoFloat.ofInt, GoFloat.div, this, BinVOX.Dim]
  · simp [BinVOX.VoxelsPerMM, BinVOX.vpmmOf, GoFloat.le, GoFloat.ofInt, h]

/-- C02: the bounding box starts at the translation, each side is `n` voxels long, the largest side
    equals `Scale`. -/
theorem mbb_eq (b : BinVOX ℚ) (hs : 0 < b.Scale) (hd : 0 < b.Dim) :
    let m := b.MBB
    (m.Min = ⟨b.TX, b.TY, b.TZ⟩) ∧
    m.Max.X - m.Min.X = b.NX * (b.Scale / b.Dim) ∧
    m.Max.Y - m.Min.Y = b.NY * (b.Scale / b.Dim) ∧
    m.Max.Z - m.Min.Z = b.NZ * (b.Scale / b.Dim) ∧
    max (max (m.Max.X - m.Min.X) (m.Max.Y - m.Min.Y)) (m.Max.Z - m.Min.Z) = b.Scale := by
  have hv := (voxelsPerMM_eq b).1 hs
  have hdq : (0 : ℚ) < b.Dim := by exact_mod_cast hd
  have e : ∀ n : Int, (1 / ((b.Dim : ℚ) / b.Scale)) * n = n * (b.Scale / b.Dim) := by
    intro n; field_simp
  have hx : b.MBB.Max.X - b.MBB.Min.X = b.NX * (b.Scale / b.Dim) := by
    show (b.TX + (((1 : Int) : ℚ) / b.VoxelsPerMM) * (b.NX : ℚ)) - b.TX = _
    rw [hv, Int.cast_one, e]; ring
  have hy : b.MBB.Max.Y - b.MBB.Min.Y = b.NY * (b.Scale / b.Dim) := by
    show (b.TY + (((1 : Int) : ℚ) / b.VoxelsPerMM) * (b.NY : ℚ)) - b.TY = _
    rw [hv, Int.cast_one, e]; ring
  have hz : b.MBB.Max.Z - b.MBB.Min.Z = b.NZ * (b.Scale / b.Dim) := by
    show (b.TZ + (((1 : Int) : ℚ) / b.VoxelsPerMM) * (b.NZ : ℚ)) - b.TZ = _
    rw [hv, Int.cast_one, e]; ring
  refine ⟨rfl, hx, hy, hz, ?_⟩
  rw [hx, hy, hz]
  have hp : (0 : ℚ) ≤ b.Scale / b.Dim := by positivity
  rw [← max_mul_of_nonneg _ _ hp, ← max_mul_of_nonneg _ _ hp]
  have hm : max (max (b.NX : ℚ) (b.NY : ℚ)) (b.NZ : ℚ) = (b.Dim : ℚ) := by
    have hmax := dim_is_max b
    have : max (max b.NX b.NY) b.NZ = b.Dim := by
      obtain ⟨⟨a1, a2, a3⟩, a4⟩ := hmax
      omega
    rw [← this]; push_cast; rfl
  rw [hm]; field_simp

/-- C02: the cube of a voxel whose indices lie inside the dimensions is inside the box. -/
theorem voxel_cube_in_mbb (b : BinVOX ℚ) (hs : 0 < b.Scale) (x y z : Int)
    (hx : 0 ≤ x ∧ x < b.NX) (hy : 0 ≤ y ∧ y < b.NY) (hz : 0 ≤ z ∧ z < b.NZ) :
    let p := b.Scale / b.Dim
    let m := b.MBB
    (m.Min.X ≤ b.TX + x * p ∧ b.TX + (x + 1) * p ≤ m.Max.X) ∧
    (m.Min.Y ≤ b.TY + y * p ∧ b.TY + (y + 1) * p ≤ m.Max.Y) ∧
    (m.Min.Z ≤ b.TZ + z * p ∧ b.TZ + (z + 1) * p ≤ m.Max.Z) := by
  have hd : 0 < b.Dim := by have := (dim_is_max b).1; omega
  obtain ⟨h0, h1, h2, h3, _⟩ := mbb_eq b hs hd
  have hdq : (0 : ℚ) < b.Dim := by exact_mod_cast hd
  have hp : (0 : ℚ) ≤ b.Scale / b.Dim := by positivity
  have aux : ∀ (i n : Int), 0 ≤ i ∧ i < n → (0 : ℚ) ≤ i * (b.Scale / b.Dim) ∧
      ((i : ℚ) + 1) * (b.Scale / b.Dim) ≤ n * (b.Scale / b.Dim) := by
    intro i n hi
    have a1 : (0 : ℚ) ≤ i := by exact_mod_cast hi.1
    have a2 : (i : ℚ) + 1 ≤ n := by exact_mod_cast hi.2
    exact ⟨by positivity, mul_le_mul_of_nonneg_right a2 hp⟩
  have ax := aux x _ hx
  have ay := aux y _ hy
  have az := aux z _ hz
  rw [h0] at h1 h2 h3
  simp only at h1 h2 h3
  refine ⟨⟨?_, ?_⟩, ⟨?_, ?_⟩, ⟨?_, ?_⟩⟩
  · rw [h0]; linarith [ax.1]
  · linarith [ax.2]
  · rw [h0]; linarith [ay.1]
  · linarith [ay.2]
  · rw [h0]; linarith [az.1]
  · linarith [az.2]

/-- A non-cubic model meeting the hypotheses. -/
example : (0 : ℚ) < (BinVOX.New 10 20 5 (-1) 2 3 (40 : ℚ) false).Scale ∧
    0 < (BinVOX.New 10 20 5 (-1) 2 3 (40 : ℚ) false).Dim := by
  constructor
  · norm_num [BinVOX.New]
  · decide

/-! ## Examples -/

/-- A model of 2×3×2 voxels of half a millimetre. -/
def exMapModel : BinVOX ℚ := ⟨2, 3, 2, 1 / 2, -3, 7, 3 / 2, some [(⟨1, 2, 0⟩, ())], none⟩

example := mbb_eq exMapModel (by decide +kernel) (by decide)
example := voxel_cube_in_mbb exMapModel (by decide +kernel) 1 2 0 (by decide) (by decide) (by decide)

end StlDice
