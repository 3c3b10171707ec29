import Verif.Props.IeeeVoxel

/-! # Voxelizing with numbers that are not finite (C112) -/

namespace StlDice
open Spec GoFloat BinVOX

namespace IeeeL

theorem nan_add (y : Ieee) : (GoFloat.add Ieee.nan y : Ieee) = .nan := by cases y <;> rfl
theorem add_nan (y : Ieee) : (GoFloat.add y Ieee.nan : Ieee) = .nan := by cases y <;> rfl
theorem nan_mul (y : Ieee) : (GoFloat.mul Ieee.nan y : Ieee) = .nan := by cases y <;> rfl
theorem mul_nan (y : Ieee) : (GoFloat.mul y Ieee.nan : Ieee) = .nan := by cases y <;> rfl
theorem nan_div (y : Ieee) : (GoFloat.div Ieee.nan y : Ieee) = .nan := by cases y <;> rfl
theorem div_nan (y : Ieee) : (GoFloat.div y Ieee.nan : Ieee) = .nan := by cases y <;> rfl
theorem neg_nan : (GoFloat.neg Ieee.nan : Ieee) = .nan := rfl
theorem sub_nan (y : Ieee) : (GoFloat.sub y Ieee.nan : Ieee) = .nan := add_nan y
theorem nan_sub (y : Ieee) : (GoFloat.sub Ieee.nan y : Ieee) = .nan := nan_add _
theorem lt_nan (y : Ieee) : (GoFloat.lt y Ieee.nan : Bool) = false := by cases y <;> rfl
theorem nan_lt (y : Ieee) : (GoFloat.lt Ieee.nan y : Bool) = false := by cases y <;> rfl

/-- Not a number, or infinite. -/
abbrev Odd (x : Ieee) : Prop := NotFinite x

theorem odd_add {x : Ieee} (y : Ieee) (h : Odd x) : Odd (GoFloat.add x y) := by
  rcases h with rfl | ⟨s, rfl⟩
  · exact Or.inl (nan_add y)
  · cases y with
    | fin t b hb => exact Or.inr ⟨s, rfl⟩
    | nan => exact Or.inl rfl
    | inf t =>
      show Odd (if s = t then Ieee.inf s else Ieee.nan)
      split
      · exact Or.inr ⟨s, rfl⟩
      · exact Or.inl rfl

theorem add_odd {x : Ieee} (y : Ieee) (h : Odd x) : Odd (GoFloat.add y x) := by
  rcases h with rfl | ⟨s, rfl⟩
  · exact Or.inl (add_nan y)
  · cases y with
    | fin t b hb => exact Or.inr ⟨s, rfl⟩
    | nan => exact Or.inl rfl
    | inf t =>
      show Odd (if t = s then Ieee.inf t else Ieee.nan)
      split
      · exact Or.inr ⟨t, rfl⟩
      · exact Or.inl rfl

theorem odd_neg {x : Ieee} (h : Odd x) : Odd (GoFloat.neg x) := by
  rcases h with rfl | ⟨s, rfl⟩
  · exact Or.inl rfl
  · exact Or.inr ⟨!s, rfl⟩

theorem sub_odd {x : Ieee} (y : Ieee) (h : Odd x) : Odd (GoFloat.sub y x) := add_odd y (odd_neg h)

theorem mul_odd {x : Ieee} (y : Ieee) (h : Odd x) : Odd (GoFloat.mul y x) := by
  rcases h with rfl | ⟨s, rfl⟩
  · exact Or.inl (mul_nan y)
  · cases y with
    | fin t b hb =>
      show Odd (if b = 0 then Ieee.nan else Ieee.inf (t != s))
      split
      · exact Or.inl rfl
      · exact Or.inr ⟨_, rfl⟩
    | nan => exact Or.inl rfl
    | inf t => exact Or.inr ⟨_, rfl⟩

theorem odd_div {x : Ieee} (y : Ieee) (h : Odd x) : Odd (GoFloat.div x y) := by
  rcases h with rfl | ⟨s, rfl⟩
  · exact Or.inl (nan_div y)
  · cases y with
    | fin t b hb => exact Or.inr ⟨_, rfl⟩
    | nan => exact Or.inl rfl
    | inf t => exact Or.inl rfl

/-- At a height that is not finite no edge is cut, or in a point without coordinates. -/
theorem segment_odd (p q : Vec Ieee) {z : Ieee} (hz : Odd z) :
    intersectSegment p q z = none ∨ intersectSegment p q z = some ⟨.nan, .nan, .nan⟩ := by
  have hn : Odd (Vec.Dot ⟨ofInt 0, ofInt 0, ofInt (-1)⟩ (Vec.Sub p ⟨ofInt 0, ofInt 0, z⟩)) :=
    add_odd _ (mul_odd _ (sub_odd _ hz))
  unfold intersectSegment
  dsimp only
  generalize Vec.Dot (F := Ieee) ⟨ofInt 0, ofInt 0, ofInt (-1)⟩ (Vec.Sub p ⟨ofInt 0, ofInt 0, z⟩) = n at *
  generalize Vec.Dot (F := Ieee) ⟨ofInt 0, ofInt 0, ofInt 1⟩ (Vec.Sub q p) = d
  split
  · exact Or.inl rfl
  · have ht := odd_div d hn
    generalize (GoFloat.div n d : Ieee) = t at *
    rcases ht with rfl | ⟨s, rfl⟩
    · right
      rw [nan_lt, lt_nan]
      show some (Vec.Add p (Vec.MulScalar (Vec.Sub q p) Ieee.nan)) = _
      unfold Vec.Add Vec.MulScalar
      rw [mul_nan, mul_nan, mul_nan, add_nan, add_nan, add_nan]
    · left
      have e0 : ∃ s a h, (ofInt 0 : Ieee) = .fin s a h := (isP_zero.1).imp fun s h => h.imp fun a h => h.imp fun k h => h.1
      have e1 : ∃ s a h, (ofInt 1 : Ieee) = .fin s a h := (isP_one.1).imp fun s h => h.imp fun a h => h.imp fun k h => h.1
      obtain ⟨s0, a0, h0, e0⟩ := e0
      obtain ⟨s1, a1, h1, e1⟩ := e1
      rw [e0, e1]
      cases s <;> rfl

theorem grid_nan (v t : Ieee) : gridCoord v .nan t = Ieee.minInt := by
  unfold gridCoord
  rw [nan_sub, mul_nan]
  rfl

/-- Such a slice touches no cell. -/
theorem touches_odd {b : BinVOX Ieee} {m : Mesh Ieee} {zi : Int} (hz : Odd (sliceHeight b zi)) (y : Int) (p : Nat) (x : Int) :
    ¬ Touches b m zi y p x := by
  rintro ⟨hp, y0, y1, q, hq, hm⟩
  have a := segment_odd (m.heap p).V1.Position (m.heap p).V2.Position hz
  have b' := segment_odd (m.heap p).V2.Position (m.heap p).V3.Position hz
  have c := segment_odd (m.heap p).V3.Position (m.heap p).V1.Position hz
  have hv : q.v1 = ⟨.nan, .nan, .nan⟩ ∧ q.v2 = ⟨.nan, .nan, .nan⟩ := by
    unfold intersectTriZPlane at hq
    dsimp only at hq
    rcases a with a | a <;> rcases b' with b' | b' <;> rcases c with c | c <;> rw [a, b', c] at hq <;> dsimp only at hq <;>
      first
      | (cases hq; exact ⟨rfl, rfl⟩)
      | cases hq
  unfold pairPoints at hm
  rw [hv.1, hv.2, grid_nan, grid_nan] at hm
  have hr : rasterLine Ieee.minInt Ieee.minInt Ieee.minInt Ieee.minInt = [(Ieee.minInt, Ieee.minInt)] := by decide
  rw [hr, List.mem_singleton] at hm
  injection hm with _ hm
  rw [hm] at y0
  exact absurd y0 (by decide)

theorem round_zero (z : Bool) : ∃ s h, Ieee.round z 0 = .fin s 0 h := by
  unfold Ieee.round
  have e : F64.rnd |(0 : ℚ)| = 0 := by rw [abs_zero, F64.rnd_zero]
  have hlt : F64.rnd |(0 : ℚ)| < 2 ^ 1024 := by rw [e]; positivity
  rw [dif_pos hlt]
  refine ⟨z, ⟨le_rfl, by positivity, F64.rnd_zero⟩, ?_⟩
  simp only [e]
  rw [if_pos trivial]

theorem zero_is : ∃ s h, (ofInt 0 : Ieee) = .fin s 0 h := by
  have h : (ofInt 0 : Ieee) = Ieee.round false ((0 : Int) : ℚ) := rfl
  rw [h, Int.cast_zero]
  exact round_zero false

theorem div_inf (t : Bool) (a : ℚ) (ha : _) (s : Bool) : (GoFloat.div (Ieee.fin t a ha) (Ieee.inf s) : Ieee) = Ieee.round (t != s) 0 := by
  show Ieee.div _ _ = _
  rw [Ieee.div]

theorem div_zero (t s : Bool) (a : ℚ) (ha hb : _) : Odd (GoFloat.div (Ieee.fin t a ha) (Ieee.fin s 0 hb) : Ieee) := by
  have e : (GoFloat.div (Ieee.fin t a ha) (Ieee.fin s 0 hb) : Ieee) = if a = 0 then Ieee.nan else Ieee.inf (t != s) := by
    show Ieee.div _ _ = _
    unfold Ieee.div
    exact if_pos rfl
  rw [e]
  split
  · exact Or.inl rfl
  · exact Or.inr ⟨_, rfl⟩

end IeeeL

open IeeeL

/-- The resolution is not a number, or zero, if the scale is not finite (and not minus infinity). -/
theorem vpmm_odd {nx ny nz : Int} {s : Ieee} (h : s = .nan ∨ s = .inf false) (hd : |dimOf nx ny nz| ≤ 2 ^ 62) :
    Odd (div (ofInt 1) (vpmmOf nx ny nz s) : Ieee) := by
  unfold vpmmOf
  rcases h with rfl | rfl
  · have e : (GoFloat.le Ieee.nan (ofInt 0) : Bool) = false := rfl
    rw [e]
    left
    show (div (ofInt 1) (div (ofInt (dimOf nx ny nz)) Ieee.nan) : Ieee) = _
    rw [div_nan, div_nan]
  · obtain ⟨s0, h0, e0⟩ := zero_is
    have e : (GoFloat.le (Ieee.inf false) (ofInt 0) : Bool) = false := by rw [e0]; rfl
    rw [e]
    have hdq : |((dimOf nx ny nz : Int) : ℚ)| ≤ 2 ^ 62 := by exact_mod_cast hd
    obtain ⟨t, a, ha, ea, -⟩ := (isP_ofInt hdq (by norm_num)).1
    obtain ⟨t1, a1, ha1, ea1, e1⟩ := isP_one.1
    show Odd (div (ofInt 1) (div (ofInt (dimOf nx ny nz)) (Ieee.inf false)) : Ieee)
    rw [ea, ea1]
    rw [div_inf]
    obtain ⟨s2, h2, ez⟩ := round_zero (t != false)
    rw [ez]
    exact div_zero _ _ _ _ _

theorem toInt_odd {x : Ieee} (h : Odd x) : (toInt (floor x) : Int) = Ieee.minInt := by
  rcases h with rfl | ⟨s, rfl⟩ <;> rfl

theorem grid_odd (v c : Ieee) {t : Ieee} (h : Odd t) : gridCoord v c t = Ieee.minInt := toInt_odd (mul_odd _ (sub_odd _ h))

/-- A rasterised line between cells in one row stays in the row, and one between cells in one column in the column. -/
theorem raster_straight {x1 y1 x2 y2 x y : Int} (h : (x, y) ∈ rasterLine x1 y1 x2 y2) :
    (x1 = x2 → x = x1) ∧ (y1 = y2 → y = y1) := by
  obtain ⟨t, -, -, hx, hy⟩ := rasterLine_near h
  have key : ∀ {a c : Int}, |(c : ℚ) - a| ≤ 1 / 2 → c = a := by
    intro a c hc
    obtain ⟨h1, h2⟩ := abs_le.mp hc
    have h3 : (c : ℚ) < a + 1 := by linarith
    have h4 : (a : ℚ) < c + 1 := by linarith
    have h5 : c < a + 1 := by exact_mod_cast h3
    have h6 : a < c + 1 := by exact_mod_cast h4
    omega
  constructor
  · rintro rfl
    apply key
    convert hx using 2
    ring
  · rintro rfl
    apply key
    convert hy using 2
    ring

/-- **C112.** If the scale of the region is not a number or plus infinity, or a coordinate of its corner is not a number or
    infinite, `Voxelize` stores no voxel of the region, whatever the mesh and the schedule. -/
theorem voxelize_not_finite {b out : BinVOX Ieee} {m : Mesh Ieee} (hd : |dimOf b.NX b.NY b.NZ| ≤ 2 ^ 62)
    (ho : b.Scale = .nan ∨ b.Scale = .inf false ∨ NotFinite b.TX ∨ NotFinite b.TY ∨ NotFinite b.TZ)
    (h : VoxelizeRun b m (.ok out)) (k : Key) (hk : InDims b.NX b.NY b.NZ k) : out.white.has k = false := by
  have main : ∀ x p, 0 ≤ x → ¬ Touches b m k.Z k.Y p x := by
    intro x p hx ht
    by_cases hz : Odd (sliceHeight b k.Z)
    · exact touches_odd hz _ _ _ ht
    · obtain ⟨hp, y0, y1, q, hq, hm⟩ := ht
      unfold pairPoints at hm
      obtain ⟨sx, sy⟩ := raster_straight hm
      rcases ho with e | e | e | e | e
      · exact hz (add_odd _ (mul_odd _ (vpmm_odd (Or.inl e) hd)))
      · exact hz (add_odd _ (mul_odd _ (vpmm_odd (Or.inr e) hd)))
      · rw [grid_odd _ _ e, grid_odd _ _ e] at sx
        rw [sx rfl] at hx
        exact absurd hx (by decide)
      · rw [grid_odd _ _ e, grid_odd _ _ e] at sy
        rw [sy rfl] at y0
        exact absurd y0 (by decide)
      · exact hz (odd_add _ e)
  rw [← Bool.not_eq_true, run_filled h]
  rintro ⟨-, -, -, ⟨p, hp⟩ | ⟨-, ⟨x, p, hx, hp⟩, -⟩⟩
  · exact main _ p hk.1 hp
  · exact main x p (hk.1.trans hx) hp

/-- The tetrahedron in a region whose header gives no number for the scale: every run succeeds and stores nothing in the region. -/
example : ∃ out, VoxelizeRun { ieeeModel tetraGrid with Scale := .nan } (ieeeMesh tetra) (.ok out) ∧
    ∀ k, InDims 4 4 4 k → out.white.has k = false := by
  obtain ⟨out, ho⟩ := run_ok { ieeeModel tetraGrid with Scale := .nan } (ieeeMesh tetra) (by unfold zeroDim; decide)
  exact ⟨out, ho, fun k hk => voxelize_not_finite (by decide) (Or.inl rfl) ho k hk⟩

end StlDice
