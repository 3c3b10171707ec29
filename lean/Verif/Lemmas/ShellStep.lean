import Verif.Lemmas.ShellExact
import Mathlib.Data.Finset.Max
import Mathlib.Tactic.FieldSimp
import Mathlib.Tactic.Positivity
import Mathlib.Tactic.Linarith

/-! One call of `Add`. -/

namespace StlDice
open Spec
variable {F : Type}

theorem isShell_congr {S S' : Key → Prop} (h : ∀ k, S k ↔ S' k) (vs : List VShVoxel) :
    IsShell S vs ↔ IsShell S' vs := by
  have : S = S' := funext fun k => propext (h k)
  rw [this]

theorem isShell_nil {S : Key → Prop} (h : ∀ k, ¬ S k) : IsShell S [] := by
  refine ⟨List.nodup_nil, fun v => ?_⟩
  constructor
  · intro h; cases h
  · rintro ⟨h1, _⟩; exact absurd h1 (h _)

/-- Two shells of the same set hold the same voxels. -/
theorem isShell_perm {S : Key → Prop} {a b : List VShVoxel} (ha : IsShell S a) (hb : IsShell S b) :
    a.Perm b := by
  rw [List.perm_ext_iff_of_nodup (List.Nodup.of_map _ ha.1) (List.Nodup.of_map _ hb.1)]
  intro v
  rw [ha.2, hb.2]

theorem nbr_moved (S : Key → Prop) (o k : Key) (j : Nat) :
    Moved S o (nbr k j) ↔ S (nbr ⟨k.X - o.X, k.Y - o.Y, k.Z - o.Z⟩ j) := by
  unfold Moved nbr Key.shift
  rcases off j with ⟨a, b, c⟩
  have h1 : k.X + a - o.X = k.X - o.X + a := by omega
  have h2 : k.Y + b - o.Y = k.Y - o.Y + b := by omega
  have h3 : k.Z + c - o.Z = k.Z - o.Z + c := by omega
  simp only [h1, h2, h3]

theorem nbrSpec_moved (S : Key → Prop) (o k : Key) (N : NeighborBitMap) :
    NbrSpec (Moved S o) k N ↔ NbrSpec S ⟨k.X - o.X, k.Y - o.Y, k.Z - o.Z⟩ N := by
  rw [nbrSpec_iff, nbrSpec_iff]
  simp only [nbr_moved]

theorem exposed_moved (S : Key → Prop) (o k : Key) :
    Exposed (Moved S o) k ↔ Exposed S ⟨k.X - o.X, k.Y - o.Y, k.Z - o.Z⟩ := by
  rw [exposed_iff, exposed_iff]
  simp only [nbr_moved]

theorem moveBack_key (v : VShVoxel) (dx dy dz : Int) :
    (v.moveBack dx dy dz).key = ⟨v.X - dx, v.Y - dy, v.Z - dz⟩ := rfl

/-- Moving a shell. -/
theorem isShell_move {S : Key → Prop} {vs : List VShVoxel} (h : IsShell S vs) (dx dy dz : Int) :
    IsShell (Moved S ⟨-dx, -dy, -dz⟩) (vs.map (fun v => v.moveBack dx dy dz)) := by
  constructor
  · rw [List.map_map]
    have : (VShVoxel.key ∘ fun v : VShVoxel => v.moveBack dx dy dz) =
        (fun k : Key => (⟨k.X - dx, k.Y - dy, k.Z - dz⟩ : Key)) ∘ VShVoxel.key := by
      funext v; rfl
    rw [this, ← List.map_map]
    apply h.1.map
    intro a b hab
    obtain ⟨x, y, z⟩ := a
    obtain ⟨x', y', z'⟩ := b
    simp only [Key.mk.injEq] at hab ⊢
    omega
  · intro v
    rw [nbrSpec_moved, exposed_moved, List.mem_map]
    have hk : (⟨v.key.X - -dx, v.key.Y - -dy, v.key.Z - -dz⟩ : Key) = ⟨v.X + dx, v.Y + dy, v.Z + dz⟩ := by
      simp [VShVoxel.key]
    constructor
    · rintro ⟨w, hw, rfl⟩
      obtain ⟨h1, h2, h3⟩ := (h.2 w).mp hw
      have e : (⟨(w.moveBack dx dy dz).key.X - -dx, (w.moveBack dx dy dz).key.Y - -dy,
          (w.moveBack dx dy dz).key.Z - -dz⟩ : Key) = w.key := by
        simp [VShVoxel.key, VShVoxel.moveBack]
      unfold Moved
      rw [e]
      exact ⟨h1, h2, h3⟩
    · rintro ⟨h1, h2, h3⟩
      unfold Moved at h1
      rw [hk] at h1 h2 h3
      refine ⟨⟨v.X + dx, v.Y + dy, v.Z + dz, v.N⟩, (h.2 _).mpr ⟨h1, h2, h3⟩, ?_⟩
      obtain ⟨x, y, z, n⟩ := v
      simp [VShVoxel.moveBack]

/-! ### Dimensions -/

theorem growDim_eq (n v : Int) : growDim n v = max n (v + 1) := by
  unfold growDim; split <;> omega

/-- The least size covering `n` and all coordinates. -/
def cover (n : Int) (cs : List Int) : Int := cs.foldl (fun m c => max m (c + 1)) n

theorem le_cover (n : Int) (cs : List Int) : n ≤ cover n cs ∧ ∀ c ∈ cs, c < cover n cs := by
  induction cs generalizing n with
  | nil => exact ⟨le_refl _, by simp⟩
  | cons c cs ih =>
    obtain ⟨h1, h2⟩ := ih (max n (c + 1))
    have e : cover n (c :: cs) = cover (max n (c + 1)) cs := rfl
    rw [e]
    refine ⟨le_trans (le_max_left _ _) h1, ?_⟩
    intro c' hc'
    rcases List.mem_cons.mp hc' with rfl | hc'
    · have := le_trans (le_max_right n (c' + 1)) h1; omega
    · exact h2 _ hc'

theorem cover_le (n : Int) (cs : List Int) (b : Int) (hn : n ≤ b) (hc : ∀ c ∈ cs, c < b) :
    cover n cs ≤ b := by
  induction cs generalizing n with
  | nil => exact hn
  | cons c cs ih =>
    apply ih
    · have := hc c (by simp); exact max_le hn (by omega)
    · intro c' h; exact hc c' (List.mem_cons_of_mem _ h)

/-- `cover` depends only on the set of coordinates. -/
theorem cover_congr (n : Int) {a b : List Int} (h : ∀ c, c ∈ a ↔ c ∈ b) : cover n a = cover n b := by
  apply le_antisymm
  · exact cover_le _ _ _ (le_cover n b).1 (fun c hc => (le_cover n b).2 c ((h c).mp hc))
  · exact cover_le _ _ _ (le_cover n a).1 (fun c hc => (le_cover n a).2 c ((h c).mpr hc))

theorem grow_fold (ks : List Key) (vs : VShell F) :
    ks.foldl (fun w k => w.grow k) vs =
      { vs with NX := cover vs.NX (ks.map Key.X), NY := cover vs.NY (ks.map Key.Y),
                NZ := cover vs.NZ (ks.map Key.Z) } := by
  induction ks generalizing vs with
  | nil => rfl
  | cons k ks ih =>
    rw [List.foldl_cons, ih]
    unfold VShell.grow
    simp only [growDim_eq]
    rfl

theorem lookup_has (ks : List Key) (m : GoMap Key Unit) (k : Key) :
    (ks.foldl (fun m k => m.set k ()) m).has k = true ↔ m.has k = true ∨ k ∈ ks := by
  induction ks generalizing m with
  | nil => simp
  | cons a ks ih =>
    rw [List.foldl_cons, ih, GoMap.has_set, Bool.or_eq_true, decide_eq_true_eq, List.mem_cons]
    constructor
    · rintro ((h | h) | h)
      · exact Or.inr (Or.inl h.symm)
      · exact Or.inl h
      · exact Or.inr (Or.inr h)
    · rintro (h | h | h)
      · exact Or.inl (Or.inr h)
      · exact Or.inl (Or.inl h.symm)
      · exact Or.inr h

/-- The keys visited, moved. -/
def movedKeys (sch : AddSched) (p : Key) : List Key :=
  (sch.ordWhite ++ sch.ordColor).map (fun k => k.shift p.X p.Y p.Z)

theorem mem_movedKeys {sch : AddSched} {bv : BinVOX F} {p : Key} (hv : sch.Valid bv p.X p.Y p.Z) (k : Key) :
    k ∈ movedKeys sch p ↔ Moved (Occ bv) p k := by
  unfold movedKeys Moved Occ
  rw [List.mem_map]
  constructor
  · rintro ⟨j, hj, rfl⟩
    have e : (⟨(j.shift p.X p.Y p.Z).X - p.X, (j.shift p.X p.Y p.Z).Y - p.Y,
        (j.shift p.X p.Y p.Z).Z - p.Z⟩ : Key) = j := by
      simp [Key.shift]
    rw [e]
    rcases List.mem_append.mp hj with h | h
    · exact Or.inl ((GoMap.mem_keys_iff _ _).mp (hv.white.mem_iff.mp h))
    · exact Or.inr ((GoMap.mem_keys_iff _ _).mp (hv.color.mem_iff.mp h))
  · intro h
    refine ⟨⟨k.X - p.X, k.Y - p.Y, k.Z - p.Z⟩, ?_, by simp [Key.shift]⟩
    rcases h with h | h
    · exact List.mem_append_left _ (hv.white.mem_iff.mpr ((GoMap.mem_keys_iff _ _).mpr h))
    · exact List.mem_append_right _ (hv.color.mem_iff.mpr ((GoMap.mem_keys_iff _ _).mpr h))

theorem mem_ordLookup {sch : AddSched} {bv : BinVOX F} {p : Key} (hv : sch.Valid bv p.X p.Y p.Z) (k : Key) :
    k ∈ sch.ordLookup ↔ Moved (Occ bv) p k := by
  rw [hv.lookup]
  unfold Moved Occ
  constructor
  · rintro ⟨j, h, rfl⟩
    have e : (⟨(j.shift p.X p.Y p.Z).X - p.X, (j.shift p.X p.Y p.Z).Y - p.Y,
        (j.shift p.X p.Y p.Z).Z - p.Z⟩ : Key) = j := by
      simp [Key.shift]
    rw [e]; exact h
  · intro h
    exact ⟨_, h, by simp [Key.shift]⟩

/-- The header after the voxels `ks` were taken in. -/
def grown [GoFloat F] (vs : VShell F) (ks : List Key) : VShell F :=
  VShell.adjustScale { vs with NX := cover vs.NX (ks.map Key.X), NY := cover vs.NY (ks.map Key.Y),
                               NZ := cover vs.NZ (ks.map Key.Z) } vs.VoxelsPerMM

theorem adjustScale_voxels [GoFloat F] (vs : VShell F) (b : F) : (vs.adjustScale b).Voxels = vs.Voxels := by
  unfold VShell.adjustScale; dsimp only; split <;> rfl

theorem adjustScale_dims [GoFloat F] (vs : VShell F) (b : F) :
    (vs.adjustScale b).NX = vs.NX ∧ (vs.adjustScale b).NY = vs.NY ∧ (vs.adjustScale b).NZ = vs.NZ ∧
    (vs.adjustScale b).TX = vs.TX ∧ (vs.adjustScale b).TY = vs.TY ∧ (vs.adjustScale b).TZ = vs.TZ := by
  unfold VShell.adjustScale; dsimp only; split <;> simp

/-- The map `lookup` built by `Add`. -/
def lookupOf (sch : AddSched) (p : Key) : GoMap Key Unit :=
  (movedKeys sch p).foldl (fun m k => m.set k ()) []

theorem addShifted_eq [GoFloat F] (sch : AddSched) (vs : VShell F) (p : Key) :
    vs.addShifted sch p.X p.Y p.Z =
      { grown vs (movedKeys sch p) with
        Voxels := addVoxels sch.cap (lookupOf sch p) sch.ordLookup vs.Voxels } := by
  unfold VShell.addShifted
  dsimp only
  rw [grow_fold]
  unfold grown
  rw [adjustScale_voxels]
  rfl

/-- The shell after `update`: translation, old voxels moved and dimensions grown. -/
def updated [GoFloat F] (vs : VShell F) (bv : BinVOX F) : VShell F :=
  let vt := { vs with TX := minT bv.TX vs.TX, TY := minT bv.TY vs.TY, TZ := minT bv.TZ vs.TZ }
  let d := displacement vs bv
  if NonNeg d then vt
  else
    let moved := vs.Voxels.map (fun v => v.moveBack d.X d.Y d.Z)
    grown { vt with Voxels := moved } (moved.map VShVoxel.key)

theorem update_eq [GoFloat F] (vs : VShell F) (bv : BinVOX F) :
    vs.update bv = if GoFloat.toInt vs.VoxelsPerMM ≠ GoFloat.toInt bv.VoxelsPerMM then none
      else some (updated vs bv, (newMove (displacement vs bv)).X, (newMove (displacement vs bv)).Y,
        (newMove (displacement vs bv)).Z) := by
  unfold VShell.update
  dsimp only
  by_cases h : GoFloat.toInt vs.VoxelsPerMM ≠ GoFloat.toInt bv.VoxelsPerMM
  · rw [if_pos h, if_pos h]
  · rw [if_neg h, if_neg h]
    by_cases hn : NonNeg (displacement vs bv)
    · have hn' := hn
      unfold NonNeg displacement at hn'
      dsimp only at hn'
      unfold offsetOf
      rw [if_pos hn']
      simp only [updated, newMove, hn, if_true]
      rfl
    · have hn' := hn
      unfold NonNeg displacement at hn'
      dsimp only at hn'
      unfold offsetOf
      rw [if_neg hn']
      simp only [updated, newMove, hn, if_false]
      have hf : ∀ (l : List VShVoxel) (w : VShell F), l.foldl (fun w v => w.grow v.key) w =
          (l.map VShVoxel.key).foldl (fun w k => w.grow k) w := by
        intro l w; rw [List.foldl_map]
      rw [hf, grow_fold]
      rfl

/-- `Add` step by step: the moved old shell, then the loop. -/
theorem Add_eq [GoFloat F] (sch : AddSched) (vs : VShell F) (bv : BinVOX F) (hne : vs.Voxels ≠ []) :
    vs.Add sch bv = if GoFloat.toInt vs.VoxelsPerMM ≠ GoFloat.toInt bv.VoxelsPerMM then none
      else some { grown (updated vs bv) (movedKeys sch (newMove (displacement vs bv))) with
        Voxels := addVoxels sch.cap (lookupOf sch (newMove (displacement vs bv))) sch.ordLookup
          (updated vs bv).Voxels } := by
  unfold VShell.Add
  have : vs.Voxels.length > 0 := List.length_pos_iff.mpr hne
  rw [if_pos this, update_eq]
  by_cases h : GoFloat.toInt vs.VoxelsPerMM ≠ GoFloat.toInt bv.VoxelsPerMM
  · rw [if_pos h, if_pos h]
  · rw [if_neg h, if_neg h]
    dsimp only
    rw [addShifted_eq]

theorem Add_eq_nil [GoFloat F] (sch : AddSched) (vs : VShell F) (bv : BinVOX F) (hne : vs.Voxels = []) :
    vs.Add sch bv = some { grown vs (movedKeys sch ⟨0, 0, 0⟩) with
        Voxels := addVoxels sch.cap (lookupOf sch ⟨0, 0, 0⟩) sch.ordLookup [] } := by
  unfold VShell.Add
  rw [hne]
  simp only [List.length_nil, gt_iff_lt, Nat.lt_irrefl, if_false]
  have := addShifted_eq sch vs ⟨0, 0, 0⟩
  rw [hne] at this
  rw [← this]

theorem grown_voxels [GoFloat F] (vs : VShell F) (ks : List Key) : (grown vs ks).Voxels = vs.Voxels := by
  unfold grown; rw [adjustScale_voxels]

theorem updated_voxels [GoFloat F] (vs : VShell F) (bv : BinVOX F) :
    (updated vs bv).Voxels = vs.Voxels.map (fun v => v.moveBack (-(oldMove (displacement vs bv)).X)
      (-(oldMove (displacement vs bv)).Y) (-(oldMove (displacement vs bv)).Z)) := by
  unfold updated oldMove
  dsimp only
  split
  · dsimp only
    simp [VShVoxel.moveBack]
  · rw [grown_voxels]
    simp

theorem updated_isShell [GoFloat F] {S : Key → Prop} {vs : VShell F} (hS : IsShell S vs.Voxels)
    (bv : BinVOX F) : IsShell (Moved S (oldMove (displacement vs bv))) (updated vs bv).Voxels := by
  rw [updated_voxels]
  have := isShell_move hS (-(oldMove (displacement vs bv)).X)
      (-(oldMove (displacement vs bv)).Y) (-(oldMove (displacement vs bv)).Z)
  simpa using this

theorem lookupOf_has {sch : AddSched} {bv : BinVOX F} {p : Key} (hv : sch.Valid bv p.X p.Y p.Z) (k : Key) :
    (lookupOf sch p).has k = true ↔ Moved (Occ bv) p k := by
  unfold lookupOf
  rw [lookup_has, mem_movedKeys hv]; simp

theorem moved_zero (S : Key → Prop) : Moved S ⟨0, 0, 0⟩ = S := by
  funext k; unfold Moved; simp

/-- A finite non-empty set has an exposed voxel. -/
theorem exists_exposed {S : Key → Prop} (l : List Key) (hl : ∀ k, S k → k ∈ l) {k : Key} (hk : S k) :
    ∃ k, S k ∧ Exposed S k := by
  classical
  let A : Finset Key := l.toFinset.filter S
  have hA : A.Nonempty := ⟨k, by simp [A, hl k hk, hk]⟩
  obtain ⟨m, hm, hmax⟩ := Finset.exists_max_image A Key.X hA
  have hm' : S m := by simpa [A] using (Finset.mem_filter.mp hm).2
  refine ⟨m, hm', 1, 0, 0, ?_, ?_⟩
  · unfold IsOffset; omega
  · intro hs
    have := hmax _ (by simp [A, hl _ hs, hs] : m.shift 1 0 0 ∈ A)
    simp only [Key.shift] at this
    omega

theorem isShell_ne_nil {S : Key → Prop} {vs : List VShVoxel} (h : IsShell S vs) (l : List Key)
    (hl : ∀ k, S k → k ∈ l) {k : Key} (hk : S k) : vs ≠ [] := by
  obtain ⟨m, h1, h2⟩ := exists_exposed l hl hk
  obtain ⟨N, hN⟩ := exists_nbrSpec S m
  have : (⟨m.X, m.Y, m.Z, N⟩ : VShVoxel) ∈ vs := (h.2 _).mpr ⟨h1, h2, hN⟩
  intro hn
  rw [hn] at this
  cases this

end StlDice
