import Verif.Props.MergeFloat
import Verif.Props.ShellOverlap

/-! # C120: merging models on one grid in float64 -/

namespace StlDice
open Spec GoFloat F64

/-- One axis of the displacement in float64: whole voxels `e`, up to 1/8 of a voxel, become `e` or `e - 1` voxels. -/
theorem offset_f64_near {b t v : F64} {v0 : ℚ} {e : Int} {n : Nat} (h0 : 0 < v0) (he : 0 ≤ e) (hbt : t.val ≤ b.val)
    (hn1 : 1 ≤ n) (hn2 : n ≤ 2 ^ 40) (hne : (n : Int) * e ≤ 2 ^ 44) (hx : |(b.val - t.val) * v0 - e| ≤ 1 / 8)
    (hv : |v.val - v0| ≤ n * (v0 / 2 ^ 48)) :
    0 ≤ toInt (mul (sub b t) v) ∧ e - 1 ≤ toInt (mul (sub b t) v) ∧ toInt (mul (sub b t) v) ≤ e := by
  have hnq : (n : ℚ) ≤ 2 ^ 40 := by exact_mod_cast hn2
  have hn1q : (1 : ℚ) ≤ n := by exact_mod_cast hn1
  have heq : (0 : ℚ) ≤ e := by exact_mod_cast he
  have hneq : (n : ℚ) * e ≤ 2 ^ 44 := by exact_mod_cast hne
  have he44 : (e : ℚ) ≤ 2 ^ 44 := by
    have := mul_le_mul_of_nonneg_right hn1q heq
    linarith
  have hv0 : 0 ≤ v.val := by
    have h1 := (abs_le.mp hv).1
    have : (n : ℚ) * (v0 / 2 ^ 48) ≤ 2 ^ 40 * (v0 / 2 ^ 48) := mul_le_mul_of_nonneg_right hnq (by positivity)
    linarith
  have e1 : |(sub b t : F64).val - (b.val - t.val)| ≤ |b.val - t.val| / 2 ^ 53 := by
    have := add_error (val_mem b) (binary64_neg (val_mem t))
    rw [← sub_eq_add_neg] at this
    exact this
  have hs : 0 ≤ (sub b t : F64).val := by
    show 0 ≤ rnd (b.val - t.val)
    exact rnd_nonneg (by linarith)
  have hz0 : 0 ≤ (mul (sub b t) v : F64).val := by
    show 0 ≤ rnd ((sub b t : F64).val * v.val)
    exact rnd_nonneg (mul_nonneg hs hv0)
  have e2 := rnd_error_abs ((sub b t : F64).val * v.val)
  have e3 : |(sub b t : F64).val * v.val - (b.val - t.val) * v.val| ≤ |(b.val - t.val) * v.val| / 2 ^ 53 := by
    rw [← sub_mul, abs_mul, abs_mul]
    have := mul_le_mul_of_nonneg_right e1 (abs_nonneg v.val)
    linarith
  have e4 : |(mul (sub b t) v : F64).val - (sub b t : F64).val * v.val| ≤
      |(sub b t : F64).val * v.val| / 2 ^ 53 + 2 ^ (-1075 : Int) := e2
  have tiny : (2 : ℚ) ^ (-1075 : Int) ≤ 1 / 1000 := by
    have : (2 : ℚ) ^ (-1075 : Int) ≤ 2 ^ (-10 : Int) := zpow_le_zpow_right₀ (by norm_num) (by norm_num)
    exact le_trans this (by norm_num)
  have hd0 : 0 ≤ b.val - t.val := by linarith
  have e5 : |(b.val - t.val) * v.val - (b.val - t.val) * v0| ≤ (b.val - t.val) * v0 * n / 2 ^ 48 := by
    rw [← mul_sub, abs_mul, abs_of_nonneg hd0]
    have := mul_le_mul_of_nonneg_left hv hd0
    linarith
  obtain ⟨t1, t2⟩ := (toInt_trunc (mul (sub b t) v)).1 hz0
  generalize (2 : ℚ) ^ (-1075 : Int) = tn at *
  generalize (mul (sub b t) v : F64).val = z at *
  generalize (sub b t : F64).val * v.val = y at *
  generalize (b.val - t.val) * v.val = x at *
  generalize (b.val - t.val) * v0 = x0 at *
  generalize toInt (mul (sub b t) v) = w at *
  obtain ⟨x1, x2⟩ := abs_le.mp hx
  have e6 : x0 * n ≤ 2 ^ 44 + 2 ^ 38 := by
    have : x0 * n ≤ (e + 1 / 8) * n := mul_le_mul_of_nonneg_right (by linarith) (by linarith)
    have h2 : ((e : ℚ) + 1 / 8) * n = n * e + n / 8 := by ring
    rw [h2] at this
    linarith
  obtain ⟨p1, p2⟩ := abs_le.mp e5
  have hxx : |x| ≤ 2 ^ 44 + 1 := by
    rw [abs_le]
    constructor <;> linarith
  obtain ⟨q1, q2⟩ := abs_le.mp e3
  have hyy : |y| ≤ 2 ^ 44 + 2 := by
    rw [abs_le]
    obtain ⟨a, b⟩ := abs_le.mp hxx
    constructor <;> linarith
  obtain ⟨r1, r2⟩ := abs_le.mp e4
  have z1 : z < e + 1 / 2 := by linarith
  have z2 : (e : ℚ) - 1 / 2 < z := by linarith
  have w1 : (w : ℚ) < e + 1 := by linarith
  have w2 : (e : ℚ) - 2 < w := by linarith
  have w3 : (-1 : ℚ) < w := by linarith
  have w1' : w < e + 1 := by exact_mod_cast w1
  have w2' : e - 2 < w := by exact_mod_cast w2
  have w3' : -1 < w := by exact_mod_cast w3
  omega

/-- A model to be merged: the schedule of its `Add`, the model, and the place it should have relative to the first model. -/
structure NFile where
  sch : AddSched
  bv : BinVOX F64
  at' : Key

/-- The map orders are ones Go can use, given where each model is put. -/
def SchedsFrom : VShell F64 → List NFile → Prop
  | _, [] => True
  | vs, f :: fs => f.sch.Valid f.bv (newMove (displacement vs f.bv)).X (newMove (displacement vs f.bv)).Y (newMove (displacement vs f.bv)).Z ∧
      ∀ vs', vs.Add f.sch f.bv = some vs' → SchedsFrom vs' fs

/-- `d` is the move `e` or up to one voxel less along an axis. -/
def Spec.NearMove (e d : Key) : Prop :=
  (0 ≤ d.X ∧ e.X - 1 ≤ d.X ∧ d.X ≤ e.X) ∧ (0 ≤ d.Y ∧ e.Y - 1 ≤ d.Y ∧ d.Y ≤ e.Y) ∧ (0 ≤ d.Z ∧ e.Z - 1 ≤ d.Z ∧ d.Z ≤ e.Z)

/-- One axis of a model's place: it lies at or above the first model, `e` whole voxels away up to an eighth of a voxel. -/
def Spec.NearAxis (n : Nat) (v0 : ℚ) (t b : F64) (e : Int) : Prop :=
  0 ≤ e ∧ t.val ≤ b.val ∧ (n : Int) * e ≤ 2 ^ 44 ∧ |(b.val - t.val) * v0 - e| ≤ 1 / 8

/-- A model that belongs `e` voxels above the first one. -/
structure Spec.NearFile (n : Nat) (b0 bv : BinVOX F64) (e N : Key) : Prop where
  x : NearAxis n b0.VoxelsPerMM.val b0.TX bv.TX e.X
  y : NearAxis n b0.VoxelsPerMM.val b0.TY bv.TY e.Y
  z : NearAxis n b0.VoxelsPerMM.val b0.TZ bv.TZ e.Z
  inside : ∀ k, Occ bv k → k.X + e.X < N.X ∧ k.Y + e.Y < N.Y ∧ k.Z + e.Z < N.Z

/-- The place of the shell stays that of the first model, if the others lie above. -/
theorem add_T_above (sch : AddSched) (vs vs' : VShell F64) (bv : BinVOX F64) (hne : vs.Voxels ≠ [])
    (hx : vs.TX.val ≤ bv.TX.val) (hy : vs.TY.val ≤ bv.TY.val) (hz : vs.TZ.val ≤ bv.TZ.val) (he : vs.Add sch bv = some vs') :
    vs'.TX = vs.TX ∧ vs'.TY = vs.TY ∧ vs'.TZ = vs.TZ := by
  have hmin : ∀ {a b : F64}, b.val ≤ a.val → minT a b = b := by
    intro a b h
    unfold minT
    have : GoFloat.lt a b = decide (a.val < b.val) := rfl
    rw [this, decide_eq_false (not_lt.mpr h)]
    rfl
  have hu : (updated vs bv).TX = vs.TX ∧ (updated vs bv).TY = vs.TY ∧ (updated vs bv).TZ = vs.TZ := by
    unfold updated
    dsimp only
    rw [hmin hx, hmin hy, hmin hz]
    split
    · exact ⟨rfl, rfl, rfl⟩
    · unfold grown
      have := adjustScale_dims (F := F64)
      simp only [(this _ _).2.2.2.1, (this _ _).2.2.2.2.1, (this _ _).2.2.2.2.2, and_self]
  rw [Add_eq _ _ _ hne] at he
  split at he
  · cases he
  · cases he
    rw [← hu.1, ← hu.2.1, ← hu.2.2]
    unfold grown
    have := adjustScale_dims (F := F64)
    simp only [(this _ _).2.2.2.1, (this _ _).2.2.2.2.1, (this _ _).2.2.2.2.2, and_self]

/-- A resolution that stays near `v0` has the same whole part. -/
theorem whole_part {v0 : ℚ} {k : Int} (hk : 0 ≤ k) (h0 : 0 < v0) {n m : Nat} (hnm : n ≤ m) (lo : (k : ℚ) + m * (v0 / 2 ^ 48) ≤ v0)
    (hi : v0 + m * (v0 / 2 ^ 48) < k + 1) {a : F64} (ha : |a.val - v0| ≤ n * (v0 / 2 ^ 48)) : toInt a = k := by
  have hq : (n : ℚ) * (v0 / 2 ^ 48) ≤ (m : ℚ) * (v0 / 2 ^ 48) := mul_le_mul_of_nonneg_right (by exact_mod_cast hnm) (by positivity)
  obtain ⟨p, q⟩ := abs_le.mp ha
  have hkq : (0 : ℚ) ≤ k := by exact_mod_cast hk
  have x1 : (k : ℚ) ≤ a.val := by linarith
  have x2 : a.val < (k : ℚ) + 1 := by linarith
  obtain ⟨y1, y2⟩ := (toInt_trunc a).1 (le_trans hkq x1)
  have z1 : toInt a < k + 1 := by
    have : (toInt a : ℚ) < k + 1 := lt_of_le_of_lt y1 x2
    exact_mod_cast this
  have z2 : k < toInt a + 1 := by
    have : (k : ℚ) < toInt a + 1 := lt_of_le_of_lt x1 y2
    exact_mod_cast this
  omega

/-- What holds after `n` models. -/
structure NearInv (b0 : BinVOX F64) (N : Key) (n : Nat) (S : Key → Prop) (vs : VShell F64) : Prop where
  built : ∃ S', BuiltAny vs S' ∧ ∀ k, S' k ↔ S k
  tx : vs.TX = b0.TX
  ty : vs.TY = b0.TY
  tz : vs.TZ = b0.TZ
  scale : 0 < vs.Scale.val
  dim : 0 < vs.Dim
  res : |vs.VoxelsPerMM.val - b0.VoxelsPerMM.val| ≤ n * (b0.VoxelsPerMM.val / 2 ^ 48)
  dims : vs.NX ≤ N.X ∧ vs.NY ≤ N.Y ∧ vs.NZ ≤ N.Z
  inside : ∀ k, S k → k.X < N.X ∧ k.Y < N.Y ∧ k.Z < N.Z

theorem dim_le_of {vs : VShell F64} {N : Key} (h : vs.NX ≤ N.X ∧ vs.NY ≤ N.Y ∧ vs.NZ ≤ N.Z)
    (hN : N.X ≤ 2 ^ 53 ∧ N.Y ≤ 2 ^ 53 ∧ N.Z ≤ 2 ^ 53) : vs.Dim ≤ 2 ^ 53 := by
  unfold VShell.Dim BinVOX.dimOf
  dsimp only
  split <;> split <;> omega

theorem near_new {b0 : BinVOX F64} {s0 : AddSched} {N : Key} (hs : 0 < b0.Scale.val) (hd : 0 < b0.Dim)
    (h1 : (2 : ℚ) ^ (-398 : Int) ≤ b0.VoxelsPerMM.val) (h2 : b0.VoxelsPerMM.val ≤ 2 ^ (398 : Int))
    (hN : N.X ≤ 2 ^ 53 ∧ N.Y ≤ 2 ^ 53 ∧ N.Z ≤ 2 ^ 53) (hb : b0.NX ≤ N.X ∧ b0.NY ≤ N.Y ∧ b0.NZ ≤ N.Z)
    (ho : ∀ k, Occ b0 k → k.X < N.X ∧ k.Y < N.Y ∧ k.Z < N.Z) (hw : b0.white ≠ []) (hv : s0.Valid b0 0 0 0) :
    ∃ vs, VShell.New s0 b0 = some vs ∧ NearInv b0 N 1 (Occ b0) vs := by
  obtain ⟨vs, e, hsh, t1, t2, t3⟩ := new_shell_exact s0 b0 hw hv
  have hdims : vs.NX ≤ N.X ∧ vs.NY ≤ N.Y ∧ vs.NZ ≤ N.Z := by
    have ha := e
    unfold VShell.New at ha
    have hl : b0.white.length > 0 := List.length_pos_iff.mpr hw
    dsimp only at ha
    rw [if_pos hl, Add_eq_nil _ _ _ rfl] at ha
    cases ha
    refine grown_least _ _ N hb ?_
    intro k hk
    have := (mem_movedKeys (p := ⟨0, 0, 0⟩) hv k).mp hk
    unfold Moved at this
    simp only [sub_zero] at this
    exact ho k this
  obtain ⟨a, b, c⟩ := new_f64 e hs hd h1 h2 (dim_le_of hdims hN)
  exact ⟨vs, e, ⟨_, .new s0 b0 vs hw hv e, fun _ => Iff.rfl⟩, t1, t2, t3, a, b, c, hdims, ho⟩

theorem near_add {b0 : BinVOX F64} {N : Key} {n m : Nat} {k0 : Int} (hk : 0 ≤ k0) (h1 : (2 : ℚ) ^ (-398 : Int) ≤ b0.VoxelsPerMM.val)
    (h2 : b0.VoxelsPerMM.val ≤ 2 ^ (398 : Int)) (hn1 : 1 ≤ n) (hnm : n ≤ m) (hm : m ≤ 2 ^ 40)
    (lo : (k0 : ℚ) + m * (b0.VoxelsPerMM.val / 2 ^ 48) ≤ b0.VoxelsPerMM.val)
    (hi : b0.VoxelsPerMM.val + m * (b0.VoxelsPerMM.val / 2 ^ 48) < k0 + 1) (hN : N.X ≤ 2 ^ 53 ∧ N.Y ≤ 2 ^ 53 ∧ N.Z ≤ 2 ^ 53)
    {S : Key → Prop} {vs : VShell F64} (inv : NearInv b0 N n S vs) {sch : AddSched} {bv : BinVOX F64} {e : Key}
    (hf : NearFile m b0 bv e N) (hvp : toInt bv.VoxelsPerMM = k0)
    (hv : sch.Valid bv (newMove (displacement vs bv)).X (newMove (displacement vs bv)).Y (newMove (displacement vs bv)).Z) :
    ∃ vs', vs.Add sch bv = some vs' ∧ NearMove e (displacement vs bv) ∧
      NearInv b0 N (n + 1) (fun k => S k ∨ Moved (Occ bv) (displacement vs bv) k) vs' := by
  have h0 : 0 < b0.VoxelsPerMM.val := lt_of_lt_of_le (by positivity) h1
  obtain ⟨S', hb, hS⟩ := inv.built
  obtain ⟨hkeep, hne⟩ := history_keeps_shell hb
  have axis : ∀ {t b : F64} {c : Int}, NearAxis m b0.VoxelsPerMM.val t b c →
      0 ≤ toInt (mul (sub b t) vs.VoxelsPerMM) ∧ c - 1 ≤ toInt (mul (sub b t) vs.VoxelsPerMM) ∧
        toInt (mul (sub b t) vs.VoxelsPerMM) ≤ c := by
    rintro t b c ⟨a1, a2, a3, a4⟩
    refine offset_f64_near h0 a1 a2 hn1 (by omega) ?_ a4 inv.res
    have : (n : Int) * c ≤ m * c := Int.mul_le_mul_of_nonneg_right (by exact_mod_cast hnm) a1
    omega
  have hd : NearMove e (displacement vs bv) := by
    unfold NearMove displacement
    dsimp only
    rw [inv.tx, inv.ty, inv.tz]
    exact ⟨axis hf.x, axis hf.y, axis hf.z⟩
  have hnn : NonNeg (displacement vs bv) := ⟨hd.1.1, hd.2.1.1, hd.2.2.1⟩
  have hnew : newMove (displacement vs bv) = displacement vs bv := if_pos hnn
  have hold : oldMove (displacement vs bv) = ⟨0, 0, 0⟩ := if_pos hnn
  have hint := whole_part hk h0 hnm lo hi inv.res
  obtain ⟨vs', ha⟩ : ∃ vs', vs.Add sch bv = some vs' := by
    rw [Add_eq _ _ _ hne, hvp, hint]
    simp only [ne_eq, not_true, if_false]
    exact ⟨_, rfl⟩
  have hT := add_T_above sch vs vs' bv hne (by rw [inv.tx]; exact hf.x.2.1) (by rw [inv.ty]; exact hf.y.2.1) (by rw [inv.tz]; exact hf.z.2.1) ha
  have hin : ∀ k, Moved (Occ bv) (displacement vs bv) k → k.X < N.X ∧ k.Y < N.Y ∧ k.Z < N.Z := by
    intro k hk'
    have := hf.inside _ hk'
    obtain ⟨⟨_, _, a⟩, ⟨_, _, b⟩, ⟨_, _, c⟩⟩ := hd
    dsimp only at this
    omega
  have hdims := add_dims_least sch vs vs' bv hne hv ha N inv.dims (by
    intro v hvm
    rw [hold]
    have := inv.inside _ ((hS _).mp (hkeep.inside v hvm))
    simpa [VShVoxel.key] using this) (by rw [hnew]; exact hin)
  obtain ⟨a, b, c⟩ := drift_step h1 h2 (by omega) inv.scale inv.dim inv.res ha (dim_le_of hdims hN)
  refine ⟨vs', ha, hd, ⟨_, .add sch bv vs vs' S' hb hv ha, ?_⟩, by rw [hT.1, inv.tx], by rw [hT.2.1, inv.ty], by rw [hT.2.2, inv.tz], a, b,
    c, hdims, ?_⟩
  · intro k
    rw [hold, hnew]
    unfold KUnion Moved
    simp only [sub_zero]
    rw [hS]
  · rintro k (h | h)
    · exact inv.inside k h
    · exact hin k h

theorem near_fold {b0 : BinVOX F64} {N : Key} {m : Nat} {k0 : Int} (hk : 0 ≤ k0) (h1 : (2 : ℚ) ^ (-398 : Int) ≤ b0.VoxelsPerMM.val)
    (h2 : b0.VoxelsPerMM.val ≤ 2 ^ (398 : Int)) (hm : m ≤ 2 ^ 40)
    (lo : (k0 : ℚ) + m * (b0.VoxelsPerMM.val / 2 ^ 48) ≤ b0.VoxelsPerMM.val)
    (hi : b0.VoxelsPerMM.val + m * (b0.VoxelsPerMM.val / 2 ^ 48) < k0 + 1) (hN : N.X ≤ 2 ^ 53 ∧ N.Y ≤ 2 ^ 53 ∧ N.Z ≤ 2 ^ 53)
    (fs : List NFile) : ∀ (n : Nat) (S : Key → Prop) (vs : VShell F64), 1 ≤ n → n + fs.length ≤ m → NearInv b0 N n S vs →
    (∀ f ∈ fs, NearFile m b0 f.bv f.at' N ∧ toInt f.bv.VoxelsPerMM = k0) → SchedsFrom vs fs →
    ∃ (vs' : VShell F64) (d : Nat → Key), (fs.map fun f => (f.sch, some f.bv)).foldl VShell.mergeStep (some (some vs)) = some (some vs') ∧
      (∀ (i : Nat) f, fs[i]? = some f → NearMove f.at' (d i)) ∧
      NearInv b0 N (n + fs.length) (fun k => S k ∨ ∃ (i : Nat) (f : NFile), fs[i]? = some f ∧ Moved (Occ f.bv) (d i) k) vs' := by
  induction fs with
  | nil =>
    intro n S vs _ _ inv _ _
    refine ⟨vs, fun _ => ⟨0, 0, 0⟩, rfl, by intro i f h; simp at h, ?_⟩
    have e : (fun k => S k ∨ ∃ (i : Nat) (f : NFile), ([] : List NFile)[i]? = some f ∧ Moved (Occ f.bv) ⟨0, 0, 0⟩ k) = S := by
      funext k
      simp
    rw [e]
    exact inv
  | cons f fs ih =>
    intro n S vs hn hlen inv hf hsch
    rw [List.length_cons] at hlen
    obtain ⟨f1, f2⟩ := hf f List.mem_cons_self
    obtain ⟨vs1, ha, hd, inv1⟩ := near_add hk h1 h2 hn (by omega) hm lo hi hN inv f1 f2 hsch.1
    obtain ⟨vs', d, hm', hd', inv'⟩ := ih (n + 1) _ vs1 (by omega) (by omega) inv1 (fun g hg => hf g (List.mem_cons_of_mem _ hg))
      (hsch.2 vs1 ha)
    refine ⟨vs', fun i => match i with | 0 => displacement vs f.bv | i + 1 => d i, ?_, ?_, ?_⟩
    · rw [List.map_cons, List.foldl_cons]
      show List.foldl VShell.mergeStep ((vs.Add f.sch f.bv).map some) _ = _
      rw [ha]
      exact hm'
    · intro i g hg
      cases i with
      | zero =>
        simp only [List.getElem?_cons_zero, Option.some.injEq] at hg
        subst hg
        exact hd
      | succ i => exact hd' i g (by simpa using hg)
    · rw [List.length_cons, show n + (fs.length + 1) = n + 1 + fs.length by omega]
      have e : (fun k => S k ∨ ∃ (i : Nat) (g : NFile), (f :: fs)[i]? = some g ∧
          Moved (Occ g.bv) (match i with | 0 => displacement vs f.bv | i + 1 => d i) k) =
          (fun k => (S k ∨ Moved (Occ f.bv) (displacement vs f.bv) k) ∨ ∃ (i : Nat) (g : NFile), fs[i]? = some g ∧ Moved (Occ g.bv) (d i) k) := by
        funext k
        apply propext
        constructor
        · rintro (h | ⟨i, g, hg, h⟩)
          · exact Or.inl (Or.inl h)
          · cases i with
            | zero =>
              simp only [List.getElem?_cons_zero, Option.some.injEq] at hg
              subst hg
              exact Or.inl (Or.inr h)
            | succ i => exact Or.inr ⟨i, g, by simpa using hg, h⟩
        · rintro ((h | h) | ⟨i, g, hg, h⟩)
          · exact Or.inl h
          · exact Or.inr ⟨0, f, rfl, h⟩
          · exact Or.inr ⟨i + 1, g, by simpa using hg, h⟩
      rw [e]
      exact inv'

/-- **C120.** Merging models of one grid in float64. Given a first model and `fs` others, each of them meant to lie `at'` whole voxels
    above it (up to an eighth of a voxel: that is what rounding leaves of a place on the grid), with places times the number of models
    at most `2^44`, and the whole part `k0` of all the resolutions safe from the drift: `Merge` succeeds, whatever the map orders; the
    shell keeps the first model's place, its resolution up to `2^-48` per model, and lists every exposed voxel of, and only voxels
    of, the union of the models, each moved to its place or one voxel short of it along an axis. -/
theorem merge_near_f64 {b0 : BinVOX F64} {s0 : AddSched} {fs : List NFile} {N : Key} {k0 : Int} (hk : 0 ≤ k0) (hs : 0 < b0.Scale.val)
    (hd : 0 < b0.Dim) (h1 : (2 : ℚ) ^ (-398 : Int) ≤ b0.VoxelsPerMM.val) (h2 : b0.VoxelsPerMM.val ≤ 2 ^ (398 : Int))
    (hm : fs.length + 1 ≤ 2 ^ 40)
    (lo : (k0 : ℚ) + (fs.length + 1 : Nat) * (b0.VoxelsPerMM.val / 2 ^ 48) ≤ b0.VoxelsPerMM.val)
    (hi : b0.VoxelsPerMM.val + (fs.length + 1 : Nat) * (b0.VoxelsPerMM.val / 2 ^ 48) < k0 + 1)
    (hN : N.X ≤ 2 ^ 53 ∧ N.Y ≤ 2 ^ 53 ∧ N.Z ≤ 2 ^ 53) (hb : b0.NX ≤ N.X ∧ b0.NY ≤ N.Y ∧ b0.NZ ≤ N.Z)
    (ho : ∀ k, Occ b0 k → k.X < N.X ∧ k.Y < N.Y ∧ k.Z < N.Z) (hw : b0.white ≠ []) (hv : s0.Valid b0 0 0 0)
    (hf : ∀ f ∈ fs, NearFile (fs.length + 1) b0 f.bv f.at' N ∧ toInt f.bv.VoxelsPerMM = k0)
    (hsch : ∀ vs, VShell.New s0 b0 = some vs → SchedsFrom vs fs) :
    ∃ (vs : VShell F64) (d : Nat → Key), VShell.Merge ((s0, some b0) :: fs.map fun f => (f.sch, some f.bv)) = some (some vs) ∧
      (∀ (i : Nat) f, fs[i]? = some f → NearMove f.at' (d i)) ∧
      KeepsShell (fun k => Occ b0 k ∨ ∃ (i : Nat) (f : NFile), fs[i]? = some f ∧ Moved (Occ f.bv) (d i) k) vs.Voxels ∧
      vs.Voxels ≠ [] ∧ vs.TX = b0.TX ∧ vs.TY = b0.TY ∧ vs.TZ = b0.TZ ∧ (vs.NX ≤ N.X ∧ vs.NY ≤ N.Y ∧ vs.NZ ≤ N.Z) ∧
      |vs.VoxelsPerMM.val - b0.VoxelsPerMM.val| ≤ (fs.length + 1 : Nat) * (b0.VoxelsPerMM.val / 2 ^ 48) := by
  obtain ⟨vs, e, inv⟩ := near_new hs hd h1 h2 hN hb ho hw hv
  obtain ⟨vs', d, hm', hd', inv'⟩ := near_fold hk h1 h2 hm lo hi hN fs 1 _ vs (le_refl _) (by omega) inv hf (hsch vs e)
  obtain ⟨S', hb', hS'⟩ := inv'.built
  have e' : S' = _ := funext fun k => propext (hS' k)
  obtain ⟨q1, q2⟩ := history_keeps_shell hb'
  rw [e'] at q1
  have hr := inv'.res
  rw [add_comm 1] at hr
  refine ⟨vs', d, ?_, hd', q1, q2, inv'.tx, inv'.ty, inv'.tz, inv'.dims, hr⟩
  show List.foldl VShell.mergeStep ((VShell.New s0 b0).map some) _ = _
  rw [e]
  exact hm'

/-- Two models of 1.5 voxels per millimetre, the second 4 mm from the first: it belongs six voxels further. -/
example : ∃ (vs : VShell F64) (d : Nat → Key),
    VShell.Merge [(oneSch ⟨2, 0, 0⟩ ⟨0, 0, 0⟩, some (threeAt 0)), (oneSch ⟨2, 0, 0⟩ ⟨6, 0, 0⟩, some (threeAt 4))] = some (some vs) ∧
    NearMove ⟨6, 0, 0⟩ (d 0) ∧ vs.Voxels ≠ [] := by
  have hv : (threeAt 0).VoxelsPerMM.val = 3 / 2 := by decide +kernel
  have b1 : (2 : ℚ) ^ (-398 : Int) ≤ 3 / 2 :=
    le_trans (zpow_le_zpow_right₀ (by norm_num) (by norm_num : (-398 : Int) ≤ 0)) (by norm_num)
  have b2 : (3 / 2 : ℚ) ≤ 2 ^ (398 : Int) :=
    le_trans (by norm_num : (3 / 2 : ℚ) ≤ 2 ^ (1 : Int)) (zpow_le_zpow_right₀ (by norm_num) (by norm_num))
  have hocc : ∀ t k, Occ (threeAt t) k → k = ⟨2, 0, 0⟩ := by
    rintro t k (h | h)
    · rw [← GoMap.mem_keys_iff] at h
      exact List.mem_singleton.mp h
    · cases h
  obtain ⟨vs, d, h1, h2, -, h3, -⟩ := merge_near_f64 (b0 := threeAt 0) (s0 := oneSch ⟨2, 0, 0⟩ ⟨0, 0, 0⟩)
    (fs := [⟨oneSch ⟨2, 0, 0⟩ ⟨6, 0, 0⟩, threeAt 4, ⟨6, 0, 0⟩⟩]) (N := ⟨9, 1, 1⟩) (k0 := 1) (by norm_num) (by decide +kernel) (by decide)
    (by rw [hv]; exact b1) (by rw [hv]; exact b2) (by decide) (by rw [hv]; decide +kernel) (by rw [hv]; decide +kernel) (by decide) (by decide)
    (by intro k hk; rw [hocc _ k hk]; decide) (by decide) (oneSch_valid ⟨0, 0, 0⟩ rfl rfl)
    (by
      intro f hf
      rw [List.mem_singleton] at hf
      subst hf
      refine ⟨⟨⟨by norm_num, by decide +kernel, by decide, by decide +kernel⟩, ⟨by norm_num, by decide +kernel, by decide, by decide +kernel⟩,
        ⟨by norm_num, by decide +kernel, by decide, by decide +kernel⟩, ?_⟩, by decide +kernel⟩
      intro k hk
      rw [hocc _ k hk]
      decide)
    (by
      intro vs h
      have e1 := new_one (sch := oneSch ⟨2, 0, 0⟩ ⟨0, 0, 0⟩) (bv := threeAt 0) rfl rfl (oneSch_valid ⟨0, 0, 0⟩ rfl rfl) (by decide +kernel)
      rw [e1] at h
      cases h
      refine ⟨?_, fun _ _ => trivial⟩
      have : newMove (displacement { grown (⟨(threeAt 0).NX, (threeAt 0).NY, (threeAt 0).NZ, (threeAt 0).TX, (threeAt 0).TY, (threeAt 0).TZ,
          (threeAt 0).Scale, []⟩ : VShell F64) [⟨2, 0, 0⟩] with Voxels := [⟨2, 0, 0, 0⟩] } (threeAt 4)) = ⟨6, 0, 0⟩ := by decide +kernel
      have hval : ∀ m : Key, m = ⟨6, 0, 0⟩ → (oneSch ⟨2, 0, 0⟩ ⟨6, 0, 0⟩).Valid (threeAt 4) m.X m.Y m.Z := by
        rintro m rfl
        exact oneSch_valid ⟨6, 0, 0⟩ rfl rfl
      exact hval _ this)
  exact ⟨vs, d, h1, h2 0 _ rfl, h3⟩

end StlDice
