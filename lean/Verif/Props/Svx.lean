import Verif.Props.Imager
import Verif.Props.Dice

/-! # The slices of an SVX job (C42, C41 end to end) -/

namespace StlDice
open Spec GoFloat BinVOX

variable {F : Type}

/-! ## What one job sends -/

theorem sendKeys_flat (bvi : BvInfo F) (zi : Int) (hz : bvi.dz = 0) (ks : List Key)
    (h : ∀ k ∈ ks, k.Z = zi) :
    ∃ l, sendKeys bvi zi ks = some l ∧ ∀ v : VoxelInfo, v ∈ l ↔
      ∃ k ∈ ks, 0 ≤ k.X + bvi.dx ∧ 0 ≤ k.Y + bvi.dy ∧ 0 ≤ zi ∧
        v = ⟨k.X + bvi.dx, k.Y + bvi.dy, bvi.base⟩ := by
  induction ks with
  | nil => exact ⟨[], rfl, by simp⟩
  | cons k ks ih =>
    obtain ⟨l, hl, hm⟩ := ih (fun a ha => h a (List.mem_cons_of_mem _ ha))
    have hk : k.Z = zi := h k List.mem_cons_self
    unfold sendKeys
    unfold Key.shift
    dsimp only
    rw [if_neg (by rw [hz, hk]; omega)]
    split
    · rename_i hneg
      refine ⟨l, hl, ?_⟩
      intro v
      rw [hm]
      constructor
      · rintro ⟨a, ha, r⟩; exact ⟨a, List.mem_cons_of_mem _ ha, r⟩
      · rintro ⟨a, ha, r1, r2, r3, r4⟩
        rcases List.mem_cons.mp ha with rfl | ha
        · omega
        · exact ⟨a, ha, r1, r2, r3, r4⟩
    · rename_i hneg
      rw [hl]
      refine ⟨_, rfl, ?_⟩
      intro v
      rw [List.mem_cons, hm]
      constructor
      · rintro (rfl | ⟨a, ha, r⟩)
        · exact ⟨k, List.mem_cons_self, by omega, by omega, by omega, rfl⟩
        · exact ⟨a, List.mem_cons_of_mem _ ha, r⟩
      · rintro ⟨a, ha, r⟩
        rcases List.mem_cons.mp ha with rfl | ha
        · exact Or.inl r.2.2.2
        · exact Or.inr ⟨a, ha, r⟩

theorem sendKeys_upper (bvi : BvInfo F) (zi : Int) (hz : bvi.dz ≠ 0) (ks : List Key)
    (h : ∀ k ∈ ks, k.Z = zi) : sendKeys bvi zi ks = if ks = [] then some [] else none := by
  cases ks with
  | nil => rfl
  | cons k ks =>
    have hk : k.Z = zi := h k List.mem_cons_self
    unfold sendKeys Key.shift
    dsimp only
    rw [if_pos (by rw [hk]; omega), if_neg (by simp)]

/-- The job makes the agent exit: its tile does not start at the bottom and the mesh fills something
    in the tile's own slice `zi`. -/
def Spec.Fatal [GoFloat F] (zi : Int) (j : BvInfo F) : Prop :=
  j.dz ≠ 0 ∧ ¬ zeroDim j.bv ∧ ∃ x y, Filled j.bv j.mesh zi y x

/-- What one job without color voxels sends, for every schedule and map order. -/
theorem send_exact [GoFloat F] (zi : Int) (j : BvInfo F) (hc : j.bv.ColorVoxels = none)
    (res : Option (List VoxelInfo)) (h : SendRun zi j res) :
    (res = none ↔ Fatal zi j) ∧
    ∀ vs, res = some vs → ∀ v : VoxelInfo, v ∈ vs ↔
      ¬ zeroDim j.bv ∧ v.Base = j.base ∧ 0 ≤ v.X ∧ 0 ≤ v.Y ∧ 0 ≤ zi ∧
        Filled j.bv j.mesh zi (v.Y - j.dy) (v.X - j.dx) := by
  obtain ⟨out, hr, hout⟩ := h
  by_cases hd : zeroDim j.bv
  · unfold VoxelizeZRun at hr
    rw [if_pos hd] at hr
    subst hr
    dsimp only at hout
    subst hout
    refine ⟨⟨fun h => (by cases h), fun h => absurd hd h.2.1⟩, ?_⟩
    intro vs hvs v
    injection hvs with hvs
    subst hvs
    simp [hd]
  · obtain ⟨b', rfl, hb', _, hh⟩ := voxelizeZ_exact j.bv j.mesh zi hd out hr
    dsimp only at hout
    obtain ⟨ord, hp, rfl⟩ := hout
    have hcol : b'.color = [] := by
      have : b'.ColorVoxels = none := by rw [hb']; exact hc
      unfold BinVOX.color
      rw [this]; rfl
    rw [hcol] at hp
    have hmem : ∀ k, k ∈ ord ↔ k.Z = zi ∧ Filled j.bv j.mesh zi k.Y k.X := by
      intro k
      rw [hp.mem_iff, List.mem_append]
      simp only [GoMap.keys, List.map_nil, List.not_mem_nil, or_false]
      exact (GoMap.mem_keys_iff b'.white k).trans (hh k)
    have hz : ∀ k ∈ ord, k.Z = zi := fun k hk => ((hmem k).mp hk).1
    by_cases hdz : j.dz = 0
    · obtain ⟨l, hl, hm⟩ := sendKeys_flat j zi hdz ord hz
      rw [hl]
      refine ⟨⟨fun h => (by cases h), fun h => absurd hdz h.1⟩, ?_⟩
      intro vs hvs v
      injection hvs with hvs
      subst hvs
      rw [hm]
      constructor
      · rintro ⟨k, hk, h1, h2, h3, rfl⟩
        refine ⟨hd, rfl, h1, h2, h3, ?_⟩
        have := ((hmem k).mp hk).2
        dsimp only
        rw [show k.Y + j.dy - j.dy = k.Y by omega, show k.X + j.dx - j.dx = k.X by omega]
        exact this
      · rintro ⟨_, hb, h1, h2, h3, hf⟩
        refine ⟨⟨v.X - j.dx, v.Y - j.dy, zi⟩, (hmem _).mpr ⟨rfl, hf⟩, ?_, ?_, h3, ?_⟩
        · dsimp only; omega
        · dsimp only; omega
        · obtain ⟨X, Y, B⟩ := v
          dsimp only at hb ⊢
          rw [hb, show X - j.dx + j.dx = X by omega, show Y - j.dy + j.dy = Y by omega]
    · rw [sendKeys_upper j zi hdz ord hz]
      by_cases ho : ord = []
      · rw [if_pos ho]
        subst ho
        have hno : ∀ y x, ¬ Filled j.bv j.mesh zi y x := by
          intro y x hf
          exact absurd ((hmem ⟨x, y, zi⟩).mpr ⟨rfl, hf⟩) (by simp)
        refine ⟨⟨fun h => (by cases h), fun h => ?_⟩, ?_⟩
        · obtain ⟨x, y, hf⟩ := h.2.2
          exact absurd hf (hno y x)
        · intro vs hvs v
          injection hvs with hvs
          subst hvs
          simp only [List.not_mem_nil, false_iff, not_and]
          intro _ _ _ _ _
          exact hno _ _
      · rw [if_neg ho]
        refine ⟨⟨fun _ => ⟨hdz, hd, ?_⟩, fun _ => rfl⟩, fun vs hvs => by cases hvs⟩
        obtain ⟨k, hk⟩ := List.exists_mem_of_ne_nil ord ho
        exact ⟨k.X, k.Y, ((hmem k).mp hk).2⟩

theorem send_defined [GoFloat F] (zi : Int) (j : BvInfo F) : ∃ res, SendRun zi j res := by
  obtain ⟨out, hout⟩ := (voxelize_defined j.bv j.mesh).2.1 zi
  cases out with
  | ok b' => exact ⟨_, .ok b', hout, _, List.Perm.refl _, rfl⟩
  | err => exact ⟨_, .err, hout, rfl⟩
  | panic => exact ⟨_, .panic, hout, rfl⟩

theorem sendAll_exact [GoFloat F] (zi : Int) (jobs : List (BvInfo F))
    (hc : ∀ j ∈ jobs, j.bv.ColorVoxels = none) (res : Option (List VoxelInfo))
    (h : SendAll zi jobs res) :
    (res = none ↔ ∃ j ∈ jobs, Fatal zi j) ∧
    ∀ vs, res = some vs → ∀ v : VoxelInfo, v ∈ vs ↔ ∃ j ∈ jobs,
      ¬ zeroDim j.bv ∧ v.Base = j.base ∧ 0 ≤ v.X ∧ 0 ≤ v.Y ∧ 0 ≤ zi ∧
        Filled j.bv j.mesh zi (v.Y - j.dy) (v.X - j.dx) := by
  induction h with
  | nil =>
    refine ⟨by simp, ?_⟩
    intro vs hvs v
    injection hvs with hvs
    subst hvs
    simp
  | @fatal j js hs =>
    have := (send_exact zi j (hc j List.mem_cons_self) none hs).1.mp rfl
    exact ⟨⟨fun _ => ⟨j, List.mem_cons_self, this⟩, fun _ => rfl⟩, fun vs hvs => by cases hvs⟩
  | @cons j js ws r hs hr ih =>
    obtain ⟨i1, i2⟩ := ih (fun a ha => hc a (List.mem_cons_of_mem _ ha))
    obtain ⟨s1, s2⟩ := send_exact zi j (hc j List.mem_cons_self) (some ws) hs
    have hnf : ¬ Fatal zi j := fun hf => by have := s1.mpr hf; cases this
    cases r with
    | none =>
      refine ⟨⟨fun _ => ?_, fun _ => rfl⟩, fun vs hvs => by cases hvs⟩
      obtain ⟨a, ha, hf⟩ := i1.mp rfl
      exact ⟨a, List.mem_cons_of_mem _ ha, hf⟩
    | some us =>
      refine ⟨⟨fun h => (by cases h), ?_⟩, ?_⟩
      · rintro ⟨a, ha, hf⟩
        rcases List.mem_cons.mp ha with rfl | ha
        · exact absurd hf hnf
        · have := i1.mpr ⟨a, ha, hf⟩
          cases this
      · intro vs hvs v
        injection hvs with hvs
        subst hvs
        rw [List.mem_append, s2 ws rfl, i2 us rfl]
        constructor
        · rintro (h | ⟨a, ha, h⟩)
          · exact ⟨j, List.mem_cons_self, h⟩
          · exact ⟨a, List.mem_cons_of_mem _ ha, h⟩
        · rintro ⟨a, ha, h⟩
          rcases List.mem_cons.mp ha with rfl | ha
          · exact Or.inl h
          · exact Or.inr ⟨a, ha, h⟩

theorem sendAll_defined [GoFloat F] (zi : Int) (jobs : List (BvInfo F)) :
    ∃ res, SendAll zi jobs res := by
  induction jobs with
  | nil => exact ⟨_, .nil⟩
  | cons j js ih =>
    obtain ⟨r, hr⟩ := ih
    obtain ⟨s, hs⟩ := send_defined zi j
    cases s with
    | none => exact ⟨_, .fatal hs⟩
    | some vs => exact ⟨_, .cons hs hr⟩

/-! ## The jobs of one request -/

theorem fileJobs_color [GoFloat F] (L : Layout F) (mbb : Box F) (nx ny nz : Int) (base : Bool)
    (mesh : Mesh F) : ∀ j ∈ fileJobs L mbb nx ny nz base mesh,
      j.bv.ColorVoxels = none ∧ (zeroDim j.bv ↔ L.dimX = 0 ∨ L.dimY = 0 ∨ L.dimZ = 0) := by
  intro j hj
  unfold fileJobs at hj
  obtain ⟨t, _, rfl⟩ := List.mem_map.mp hj
  exact ⟨rfl, Iff.rfl⟩

theorem mem_svxJobs [GoFloat F] (L : Layout F) (mbb : Box F) (nx ny nz : Int) (base : Mesh F × Box F)
    (cuts : List (Mesh F × Box F)) (j : BvInfo F) :
    j ∈ svxJobs L mbb nx ny nz (base :: cuts) ↔
      ∃ t, InDims nx ny nz t ∧
        (j = ⟨t.X * L.dimX, t.Y * L.dimY, t.Z * L.dimZ, tileModel L mbb t, true, base.1⟩ ∨
        ∃ c ∈ cuts, j = ⟨t.X * L.dimX, t.Y * L.dimY, t.Z * L.dimZ, tileModel L mbb t, false, c.1⟩) := by
  unfold svxJobs fileJobs
  simp only [List.mem_append, List.mem_map, List.mem_flatMap, mem_tileIndices]
  constructor
  · rintro (⟨t, ht, rfl⟩ | ⟨c, hc, t, ht, rfl⟩)
    · exact ⟨t, ht, Or.inl rfl⟩
    · exact ⟨t, ht, Or.inr ⟨c, hc, rfl⟩⟩
  · rintro ⟨t, ht, rfl | ⟨c, hc, rfl⟩⟩
    · exact Or.inl ⟨t, ht, rfl⟩
    · exact Or.inr ⟨c, hc, t, ht, rfl⟩

theorem svxJobs_color [GoFloat F] (L : Layout F) (mbb : Box F) (nx ny nz : Int)
    (files : List (Mesh F × Box F)) (j : BvInfo F) (hj : j ∈ svxJobs L mbb nx ny nz files) :
    j.bv.ColorVoxels = none := by
  cases files with
  | nil => simp [svxJobs] at hj
  | cons base cuts =>
    obtain ⟨t, _, rfl | ⟨c, _, rfl⟩⟩ := (mem_svxJobs _ _ _ _ _ _ _ _).mp hj <;> rfl

/-- **C42.** For every float semantics, schedule and map order: the agent processing slice `zi` of a
    job exits iff some tile above the bottom row of tiles has something filled in its own slice `zi`
    by one of the files. -/
theorem agent_fatal_iff [GoFloat F] (mbb : Box F) (scale : F) (dim nx ny nz : Int) (L : Layout F)
    (h : layout mbb scale dim nx ny nz = .ok L) (base : Mesh F × Box F) (cuts : List (Mesh F × Box F))
    (zi : Int) (res : Option Image)
    (hr : SliceRun dim zi (svxJobs L mbb nx ny nz (base :: cuts)) res) :
    res = none ↔ ∃ t, InDims nx ny nz t ∧ t.Z ≠ 0 ∧
      ∃ f ∈ base :: cuts, ∃ x y, Filled (tileModel L mbb t) f.1 zi y x := by
  obtain ⟨_, _, _, hx, hy, hz, _⟩ := layout_ok h
  obtain ⟨r, hs, hres⟩ := hr
  have := (sendAll_exact zi _ (svxJobs_color L mbb nx ny nz _) r hs).1
  have hrn : res = none ↔ r = none := by
    cases r with
    | none => dsimp only at hres; simp [hres]
    | some vs => dsimp only at hres; obtain ⟨img, _, rfl⟩ := hres; simp
  rw [hrn, this]
  have hzd : ∀ t, ¬ zeroDim (tileModel L mbb t) := by
    intro t hzd
    rcases hzd with e | e | e
    · exact hx e
    · exact hy e
    · exact hz e
  constructor
  · rintro ⟨j, hj, h1, h2, x, y, hf⟩
    obtain ⟨t, ht, rfl | ⟨c, hc, rfl⟩⟩ := (mem_svxJobs _ _ _ _ _ _ _ _).mp hj
    · exact ⟨t, ht, fun e => h1 (by dsimp only; rw [e, Int.zero_mul]), base, List.mem_cons_self, x, y, hf⟩
    · exact ⟨t, ht, fun e => h1 (by dsimp only; rw [e, Int.zero_mul]), c, List.mem_cons_of_mem _ hc, x, y, hf⟩
  · rintro ⟨t, ht, h1, f, hf, x, y, hfill⟩
    rcases List.mem_cons.mp hf with rfl | hf
    · exact ⟨_, (mem_svxJobs _ _ _ _ _ _ _ _).mpr ⟨t, ht, Or.inl rfl⟩, Int.mul_ne_zero h1 hz, hzd t, x, y, hfill⟩
    · exact ⟨_, (mem_svxJobs _ _ _ _ _ _ _ _).mpr ⟨t, ht, Or.inr ⟨f, hf, rfl⟩⟩, Int.mul_ne_zero h1 hz, hzd t, x, y, hfill⟩

/-- **C42.** With one tile along z the agent never exits, and every slice has a run. -/
theorem agent_flat_ok [GoFloat F] (mbb : Box F) (scale : F) (dim nx ny : Int) (L : Layout F)
    (h : layout mbb scale dim nx ny 1 = .ok L) (base : Mesh F × Box F) (cuts : List (Mesh F × Box F))
    (zi : Int) :
    (∃ img, SliceRun dim zi (svxJobs L mbb nx ny 1 (base :: cuts)) (some img)) ∧
    ¬ SliceRun dim zi (svxJobs L mbb nx ny 1 (base :: cuts)) none := by
  have hno : ¬ SliceRun dim zi (svxJobs L mbb nx ny 1 (base :: cuts)) none := by
    intro hr
    obtain ⟨t, ht, h1, _⟩ := (agent_fatal_iff mbb scale dim nx ny 1 L h base cuts zi none hr).mp rfl
    unfold InDims at ht
    omega
  refine ⟨?_, hno⟩
  obtain ⟨r, hr⟩ := sendAll_defined zi (svxJobs L mbb nx ny 1 (base :: cuts))
  cases r with
  | none => exact absurd ⟨none, hr, rfl⟩ hno
  | some vs =>
    obtain ⟨img, hi⟩ := imager_defined dim vs
    exact ⟨img, some vs, hr, img, hi, rfl⟩

/-! ## End to end -/

theorem filled_sub (b b' : BinVOX ℚ) (ox oy oz : Int) (h : SubGrid b b' ox oy oz) (m : Mesh ℚ)
    (z y x : Int) (hy : 0 ≤ y ∧ y < b'.NY) (hY : 0 ≤ y + oy ∧ y + oy < b.NY) :
    Filled b' m z y x ↔ x < b'.NX ∧ ((∃ p, Touches b m (z + oz) (y + oy) p (x + ox)) ∨
      (0 ≤ x ∧ (∃ x' p, x + ox ≤ x' ∧ Touches b m (z + oz) (y + oy) p x') ∧
        Inside m.Triangles (Touches b m (z + oz) (y + oy)) (crossing m) (x + ox))) := by
  have hT : ∀ p x, Touches b' m z y p x ↔ Touches b m (z + oz) (y + oy) p (x + ox) :=
    fun p x => touches_sub b b' ox oy oz h m z y x p hy hY
  unfold Filled
  dsimp only
  rw [inside_sub m.Triangles (Touches b m (z + oz) (y + oy)) (Touches b' m z y) (crossing m) ox hT]
  simp only [hT]
  have hex : (∃ x' p, x ≤ x' ∧ Touches b m (z + oz) (y + oy) p (x' + ox)) ↔
      (∃ x' p, x + ox ≤ x' ∧ Touches b m (z + oz) (y + oy) p x') := by
    constructor
    · rintro ⟨x', p, h1, h2⟩; exact ⟨x' + ox, p, by omega, h2⟩
    · rintro ⟨x', p, h1, h2⟩
      refine ⟨x' - ox, p, by omega, ?_⟩
      rw [show x' - ox + ox = x' by omega]; exact h2
  rw [hex]

theorem filled_row {b : BinVOX F} [GoFloat F] {m : Mesh F} {z y x : Int} (h : Filled b m z y x) :
    x < b.NX ∧ 0 ≤ y ∧ y < b.NY := by
  unfold Filled at h
  dsimp only at h
  refine ⟨h.1, ?_⟩
  rcases h.2 with ⟨p, hp⟩ | ⟨_, ⟨x', p, _, hp⟩, _⟩
  · exact ⟨hp.2.1, hp.2.2.1⟩
  · exact ⟨hp.2.1, hp.2.2.1⟩

/-- In exact arithmetic the tiles of one row of tiles together fill exactly what the undiced model
    fills, for every non-negative column. -/
theorem tiles_filled (mbb : Box ℚ) (scale : ℚ) (dim nx ny nz : Int) (L : Layout ℚ)
    (h : layout mbb scale dim nx ny nz = .ok L) (hs : 0 < scale) (hd : 0 < dim)
    (px : 0 < L.dimX) (py : 0 < L.dimY) (hnx : 0 < nx) (m : Mesh ℚ) (z y x tz : Int) (hx : 0 ≤ x) :
    (∃ tx ty, 0 ≤ tx ∧ tx < nx ∧ 0 ≤ ty ∧ ty < ny ∧
      Filled (tileModel L mbb ⟨tx, ty, tz⟩) m z (y - ty * L.dimY) (x - tx * L.dimX)) ↔
    Filled (wholeModel L mbb nx ny nz) m (z + tz * L.dimZ) y x := by
  have sub := fun tx ty => tile_subGrid mbb scale dim nx ny nz L h hs hd px hnx ⟨tx, ty, tz⟩
  have key := fun tx ty => filled_sub _ _ _ _ _ (sub tx ty) m z (y - ty * L.dimY) (x - tx * L.dimX)
  dsimp only at key
  have e1 : ∀ ty : Int, y - ty * L.dimY + ty * L.dimY = y := fun _ => by omega
  have e2 : ∀ tx : Int, x - tx * L.dimX + tx * L.dimX = x := fun _ => by omega
  simp only [e1, e2] at key
  have mul_bound : ∀ (t n d : Int), 0 ≤ t → t < n → 0 < d → 0 ≤ t * d ∧ t * d + d ≤ n * d := by
    intro t n d h0 h1 h2
    refine ⟨Int.mul_nonneg h0 (le_of_lt h2), ?_⟩
    have : (t + 1) * d ≤ n * d := Int.mul_le_mul_of_nonneg_right (by omega) (le_of_lt h2)
    rw [Int.add_mul, Int.one_mul] at this
    exact this
  have ny' : (wholeModel L mbb nx ny nz).NY = ny * L.dimY := rfl
  have nx' : (wholeModel L mbb nx ny nz).NX = nx * L.dimX := rfl
  have nyt : ∀ t, (tileModel L mbb t).NY = L.dimY := fun _ => rfl
  have nxt : ∀ t, (tileModel L mbb t).NX = L.dimX := fun _ => rfl
  constructor
  · rintro ⟨tx, ty, h1, h2, h3, h4, hf⟩
    obtain ⟨r1, r2, r3⟩ := filled_row hf
    rw [nyt] at r3
    rw [nxt] at r1
    obtain ⟨b1, b2⟩ := mul_bound ty ny L.dimY h3 h4 py
    obtain ⟨b3, b4⟩ := mul_bound tx nx L.dimX h1 h2 px
    obtain ⟨_, hor⟩ := (key tx ty ⟨r2, by rw [nyt]; exact r3⟩ ⟨by omega, by rw [ny']; omega⟩).mp hf
    unfold Filled
    dsimp only
    refine ⟨by rw [nx']; omega, ?_⟩
    rcases hor with hor | ⟨_, h6, h7⟩
    · exact Or.inl hor
    · exact Or.inr ⟨hx, h6, h7⟩
  · intro hf
    obtain ⟨r1, r2, r3⟩ := filled_row hf
    rw [nx'] at r1
    rw [ny'] at r3
    refine ⟨x / L.dimX, y / L.dimY, ?_⟩
    obtain ⟨q1, q2⟩ := (axis_count L.dimX nx x px).mpr ⟨hx, r1⟩
    obtain ⟨q3, q4⟩ := (axis_count L.dimY ny y py).mpr ⟨r2, r3⟩
    obtain ⟨a1, a2⟩ := (axis_tile L.dimX x px _).mpr rfl
    obtain ⟨a3, a4⟩ := (axis_tile L.dimY y py _).mpr rfl
    rw [Int.add_mul, Int.one_mul] at a2 a4
    refine ⟨q1, q2, q3, q4, (key _ _ ⟨by omega, by rw [nyt]; omega⟩ ⟨r2, by rw [ny']; exact r3⟩).mpr ?_⟩
    unfold Filled at hf
    dsimp only at hf
    refine ⟨by rw [nxt]; omega, ?_⟩
    rcases hf.2 with hor | ⟨_, h6, h7⟩
    · exact Or.inl hor
    · exact Or.inr ⟨by omega, h6, h7⟩

/-- The cells of slice `zi` to be printed: filled by the base file and by no cut file, in the undiced
    voxelization of the model. -/
def Spec.SliceSolid (b : BinVOX ℚ) (base : Mesh ℚ) (cuts : List (Mesh ℚ)) (zi x y : Int) : Prop :=
  0 ≤ x ∧ Filled b base zi y x ∧ ∀ c ∈ cuts, ¬ Filled b c zi y x

/-- The image of a slice, for any way to say what the tiles of a file fill together. -/
theorem slice_image_any [GoFloat F] (mbb : Box F) (scale : F) (dim nx ny : Int) (L : Layout F)
    (h : layout mbb scale dim nx ny 1 = .ok L) (py : 0 < L.dimY) (base : Mesh F × Box F)
    (cuts : List (Mesh F × Box F)) (zi : Int) (hz : 0 ≤ zi) (W : Mesh F → Int → Int → Prop)
    (hW : ∀ m ∈ base.1 :: cuts.map Prod.fst, ∀ y x, 0 ≤ x →
      ((∃ tx ty, 0 ≤ tx ∧ tx < nx ∧ 0 ≤ ty ∧ ty < ny ∧
        Filled (tileModel L mbb ⟨tx, ty, 0⟩) m zi (y - ty * L.dimY) (x - tx * L.dimX)) ↔ W m x y))
    (res : Option Image) (hr : SliceRun dim zi (svxJobs L mbb nx ny 1 (base :: cuts)) res) :
    ∃ img, res = some img ∧
      Shows img (dim + 2) (dim + 2)
        (fun x y => 0 ≤ x ∧ W base.1 x y ∧ ∀ c ∈ cuts.map Prod.fst, ¬ W c x y)
        (fun i j => (i - 1, dim - j)) := by
  cases res with
  | none => exact absurd hr (agent_flat_ok mbb scale dim nx ny L h base cuts zi).2
  | some img =>
    refine ⟨img, rfl, ?_⟩
    obtain ⟨r, hs', hres⟩ := hr
    cases r with
    | none => cases hres
    | some vs =>
      obtain ⟨img', hi, e⟩ := hres
      injection e with e
      subst e
      obtain ⟨a1, a2, a3⟩ := imager_exact dim vs img hi
      refine ⟨a1, a2, ?_⟩
      intro i j
      rw [a3]
      have hm := (sendAll_exact zi _ (svxJobs_color L mbb nx ny 1 _) _ hs').2 vs rfl
      obtain ⟨_, _, _, hx', hy', hz', _⟩ := layout_ok h
      have hzd : ∀ t, ¬ zeroDim (tileModel L mbb t) := by
        intro t hzd
        rcases hzd with e | e | e
        · exact hx' e
        · exact hy' e
        · exact hz' e
      have row : ∀ {ty y : Int}, 0 ≤ ty → 0 ≤ y - ty * L.dimY → 0 ≤ y := by
        intro ty y h1 h2
        have := Int.mul_nonneg h1 py.le
        omega
      have hbase : ∀ x y, (⟨x, y, true⟩ : VoxelInfo) ∈ vs ↔ 0 ≤ x ∧ W base.1 x y := by
        intro x y
        have tf := hW base.1 List.mem_cons_self y x
        rw [hm]
        constructor
        · rintro ⟨job, hj, _, hb, h1, h2, _, hf⟩
          obtain ⟨t, ht, rfl | ⟨c, hc, rfl⟩⟩ := (mem_svxJobs _ _ _ _ _ _ _ _).mp hj
          · obtain ⟨tX, tY, tZ⟩ := t
            unfold InDims at ht
            dsimp only at ht h1 h2 hf
            have : tZ = 0 := by omega
            subst this
            exact ⟨h1, (tf h1).mp ⟨tX, tY, by omega, by omega, by omega, by omega, hf⟩⟩
          · cases hb
        · rintro ⟨h1, hf⟩
          obtain ⟨tx, ty, q1, q2, q3, q4, hf'⟩ := (tf h1).mpr hf
          refine ⟨_, (mem_svxJobs _ _ _ _ _ _ _ _).mpr ⟨⟨tx, ty, 0⟩, ?_, Or.inl rfl⟩, hzd _, rfl, h1,
            row q3 (filled_row hf').2.1, hz, ?_⟩
          · unfold InDims
            dsimp only
            omega
          · exact hf'
      have hcut : ∀ x y, 0 ≤ x → ((⟨x, y, false⟩ : VoxelInfo) ∈ vs ↔
          ∃ c ∈ cuts.map Prod.fst, W c x y) := by
        intro x y hx0
        have tf := fun m hm => hW m (List.mem_cons_of_mem _ hm) y x hx0
        rw [hm]
        constructor
        · rintro ⟨job, hj, _, hb, h1, h2, _, hf⟩
          obtain ⟨t, ht, rfl | ⟨c, hc, rfl⟩⟩ := (mem_svxJobs _ _ _ _ _ _ _ _).mp hj
          · cases hb
          · obtain ⟨tX, tY, tZ⟩ := t
            unfold InDims at ht
            dsimp only at ht h1 h2 hf
            have : tZ = 0 := by omega
            subst this
            exact ⟨c.1, List.mem_map_of_mem hc,
              (tf c.1 (List.mem_map_of_mem hc)).mp ⟨tX, tY, by omega, by omega, by omega, by omega, hf⟩⟩
        · rintro ⟨c, hc, hf⟩
          obtain ⟨tx, ty, q1, q2, q3, q4, hf'⟩ := (tf c hc).mpr hf
          obtain ⟨f, hf1, rfl⟩ := List.mem_map.mp hc
          refine ⟨_, (mem_svxJobs _ _ _ _ _ _ _ _).mpr ⟨⟨tx, ty, 0⟩, ?_, Or.inr ⟨f, hf1, rfl⟩⟩, hzd _, rfl,
            hx0, row q3 (filled_row hf').2.1, hz, ?_⟩
          · unfold InDims
            dsimp only
            omega
          · exact hf'
      unfold BaseMinusCuts
      dsimp only
      constructor
      · rintro ⟨c1, c2, c3, c4, hb, hc⟩
        obtain ⟨hx0, hfb⟩ := (hbase _ _).mp hb
        refine ⟨c1, c2, c3, c4, hx0, hfb, ?_⟩
        intro c hcm hfc
        exact hc ((hcut _ _ hx0).mpr ⟨c, hcm, hfc⟩)
      · rintro ⟨c1, c2, c3, c4, hx0, hfb, hn⟩
        refine ⟨c1, c2, c3, c4, (hbase _ _).mpr ⟨hx0, hfb⟩, ?_⟩
        intro hc
        obtain ⟨c, hcm, hfc⟩ := (hcut _ _ hx0).mp hc
        exact hn c hcm hfc

/-- **C41, C42 (end to end).** In exact arithmetic, for every base file and list of cut files, every
    number of tiles along x and y (one along z), every slice `zi ≥ 0`, every schedule of the
    voxelization, map order and order of arrival: the agent produces the image whose white pixels are
    exactly the cells of the slice that the undiced voxelization of the base fills and that of no
    cut does, mirrored in y and inside a border of one pixel. -/
theorem slice_image_exact (mbb : Box ℚ) (scale : ℚ) (dim nx ny : Int) (L : Layout ℚ)
    (h : layout mbb scale dim nx ny 1 = .ok L) (hs : 0 < scale) (hd : 0 < dim)
    (px : 0 < L.dimX) (py : 0 < L.dimY) (hnx : 0 < nx) (base : Mesh ℚ × Box ℚ)
    (cuts : List (Mesh ℚ × Box ℚ)) (zi : Int) (hz : 0 ≤ zi) (res : Option Image)
    (hr : SliceRun dim zi (svxJobs L mbb nx ny 1 (base :: cuts)) res) :
    ∃ img, res = some img ∧
      Shows img (dim + 2) (dim + 2)
        (SliceSolid (wholeModel L mbb nx ny 1) base.1 (cuts.map Prod.fst) zi)
        (fun i j => (i - 1, dim - j)) := by
  refine slice_image_any mbb scale dim nx ny L h py base cuts zi hz
    (fun m x y => Filled (wholeModel L mbb nx ny 1) m zi y x) (fun m _ y x hx => ?_) res hr
  have := tiles_filled mbb scale dim nx ny 1 L h hs hd px py hnx m zi y x 0 hx
  rw [Int.zero_mul, Int.add_zero] at this
  exact this

/-! ## Files that are too thin -/

/-- **C65.** A cut file whose own bounding box is too thin for the tile counts makes the agent exit on
    every slice, although only the base's bounding box is used for the tiles. -/
theorem agent_thin_cut_fatal [GoFloat F] (dim nx ny nz zi : Int) (base : Mesh F × Box F)
    (cuts : List (Mesh F × Box F)) (c : Mesh F × Box F) (hc : c ∈ cuts)
    (ht : layout c.2 (boxScale c.2) dim nx ny nz = .err) (res : Option Image)
    (hr : AgentSliceRun dim nx ny nz zi (base :: cuts) res) : res = none := by
  unfold AgentSliceRun at hr
  dsimp only at hr
  rcases hr with ⟨_, _, hall, _⟩ | ⟨_, hr⟩
  · obtain ⟨L, hL⟩ := hall c hc
    rw [ht] at hL
    cases hL
  · exact hr

/-- **C65.** Exactly when the agent exits: some file of the job, base or cut, fails its own size check, or
    a tile above the bottom row has something filled in its slice. -/
theorem agent_exits_iff [GoFloat F] (dim nx ny nz zi : Int) (base : Mesh F × Box F)
    (cuts : List (Mesh F × Box F)) (res : Option Image)
    (hr : AgentSliceRun dim nx ny nz zi (base :: cuts) res) :
    res = none ↔ (∃ f ∈ base :: cuts, ¬ ∃ L, layout f.2 (boxScale f.2) dim nx ny nz = .ok L) ∨
      ∃ L, layout base.2 (boxScale base.2) dim nx ny nz = .ok L ∧ ∃ t, InDims nx ny nz t ∧ t.Z ≠ 0 ∧
        ∃ f ∈ base :: cuts, ∃ x y, Filled (tileModel L base.2 t) f.1 zi y x := by
  unfold AgentSliceRun at hr
  dsimp only at hr
  rcases hr with ⟨L, hL, hall, hr⟩ | ⟨hbad, hr⟩
  · rw [agent_fatal_iff base.2 _ dim nx ny nz L hL base cuts zi res hr]
    constructor
    · intro h; exact Or.inr ⟨L, hL, h⟩
    · rintro (⟨f, hf, hn⟩ | ⟨L', hL', h⟩)
      · rcases List.mem_cons.mp hf with rfl | hf
        · exact absurd ⟨L, hL⟩ hn
        · exact absurd (hall f hf) hn
      · rw [hL] at hL'
        injection hL' with hL'
        subst hL'
        exact h
  · refine ⟨fun _ => Or.inl ?_, fun _ => hr⟩
    by_contra hno
    apply hbad
    intro f hf
    by_contra hn
    exact hno ⟨f, hf, hn⟩

/-- **C65.** With one tile along z: the agent exits iff some file, base or cut, fails its own size check. -/
theorem agent_flat_exits_iff [GoFloat F] (dim nx ny zi : Int) (base : Mesh F × Box F)
    (cuts : List (Mesh F × Box F)) (res : Option Image)
    (hr : AgentSliceRun dim nx ny 1 zi (base :: cuts) res) :
    res = none ↔ ∃ f ∈ base :: cuts, ¬ ∃ L, layout f.2 (boxScale f.2) dim nx ny 1 = .ok L := by
  rw [agent_exits_iff dim nx ny 1 zi base cuts res hr]
  constructor
  · rintro (h | ⟨L, _, t, ht, hz, _⟩)
    · exact h
    · unfold InDims at ht; omega
  · exact Or.inl

/-- Every slice of every job has a run. -/
theorem agent_slice_defined [GoFloat F] (dim nx ny nz zi : Int) (base : Mesh F × Box F)
    (cuts : List (Mesh F × Box F)) : ∃ res, AgentSliceRun dim nx ny nz zi (base :: cuts) res := by
  unfold AgentSliceRun
  dsimp only
  by_cases h : ∀ f ∈ base :: cuts, ∃ L, layout f.2 (boxScale f.2) dim nx ny nz = .ok L
  · obtain ⟨L, hL⟩ := h base List.mem_cons_self
    obtain ⟨r, hr⟩ := sendAll_defined zi (svxJobs L base.2 nx ny nz (base :: cuts))
    cases r with
    | none => exact ⟨none, Or.inl ⟨L, hL, fun c hc => h c (List.mem_cons_of_mem _ hc), none, hr, rfl⟩⟩
    | some vs =>
      obtain ⟨img, hi⟩ := imager_defined dim vs
      exact ⟨some img, Or.inl ⟨L, hL, fun c hc => h c (List.mem_cons_of_mem _ hc), some vs, hr, img, hi, rfl⟩⟩
  · exact ⟨none, Or.inr ⟨h, rfl⟩⟩

/-- **C65.** If every file on its own would be a valid job, the agent's slice is the one described by
    `slice_image_exact`; what the cut files' own bounding boxes are does not matter. -/
theorem agent_files_exact (dim nx ny zi : Int) (base : Mesh ℚ × Box ℚ) (cuts : List (Mesh ℚ × Box ℚ))
    (hok : ∀ f ∈ base :: cuts, ∃ L, layout f.2 (boxScale f.2) dim nx ny 1 = .ok L)
    (hs : 0 < boxScale base.2) (hd : 0 < dim) (hnx : 0 < nx) (hz : 0 ≤ zi) :
    ∃ L, layout base.2 (boxScale base.2) dim nx ny 1 = .ok L ∧ (0 < L.dimX → 0 < L.dimY →
      ∀ res, AgentSliceRun dim nx ny 1 zi (base :: cuts) res → ∃ img, res = some img ∧
        Shows img (dim + 2) (dim + 2)
          (SliceSolid (wholeModel L base.2 nx ny 1) base.1 (cuts.map Prod.fst) zi)
          (fun i j => (i - 1, dim - j))) := by
  obtain ⟨L, hL⟩ := hok base List.mem_cons_self
  refine ⟨L, hL, ?_⟩
  intro px py res hr
  unfold AgentSliceRun at hr
  dsimp only at hr
  rcases hr with ⟨L', hL', _, hr⟩ | ⟨hno, _⟩
  · rw [hL] at hL'
    injection hL' with e
    subst e
    exact slice_image_exact base.2 _ dim nx ny L hL hs hd px py hnx base cuts zi hz res hr
  · exact absurd hok hno

/-- A box without height. -/
def flatBox : Box ℚ := ⟨⟨0, 0, 1⟩, ⟨4, 4, 1⟩⟩

theorem flat_layout : layout flatBox (boxScale flatBox) 8 2 2 1 = .err := by
  decide +kernel

/-- A flat cut file (all of it at one height) is enough. -/
example (base : Mesh ℚ × Box ℚ) (m : Mesh ℚ) (zi : Int) (res : Option Image)
    (hr : AgentSliceRun 8 2 2 1 zi [base, (m, flatBox)] res) : res = none :=
  agent_thin_cut_fatal 8 2 2 1 zi base [(m, flatBox)] (m, flatBox) (List.mem_singleton.mpr rfl)
    flat_layout res hr

/-! ## stldice-mr -/

theorem mem_mrEmit (base : Bool) (ks : List Key) (z : Int) (v : VoxelInfo) :
    (z, v) ∈ mrEmit base ks ↔ v.Base = base ∧ 0 ≤ v.X ∧ 0 ≤ v.Y ∧ 0 ≤ z ∧ ⟨v.X, v.Y, z⟩ ∈ ks := by
  unfold mrEmit
  simp only [List.mem_map, List.mem_filter, Bool.not_eq_true', Bool.or_eq_false_iff,
    decide_eq_false_iff_not, Prod.mk.injEq]
  constructor
  · rintro ⟨k, ⟨hk, ⟨h1, h2⟩, h3⟩, rfl, rfl⟩
    exact ⟨rfl, by dsimp only; omega, by dsimp only; omega, by omega, hk⟩
  · rintro ⟨h0, h1, h2, h3, hk⟩
    refine ⟨⟨v.X, v.Y, z⟩, ⟨hk, ⟨?_, ?_⟩, ?_⟩, rfl, ?_⟩
    · dsimp only; omega
    · dsimp only; omega
    · dsimp only; omega
    · obtain ⟨X, Y, B⟩ := v
      dsimp only at h0 ⊢
      rw [h0]

/-- What one mapper emits. -/
theorem mrEmit_exact [GoFloat F] (j : BvInfo F) (hc : j.bv.ColorVoxels = none)
    (hd : ¬ zeroDim j.bv) (es : List (Int × VoxelInfo)) (h : MrEmitRun j es) (z : Int) (v : VoxelInfo) :
    (z, v) ∈ es ↔ v.Base = j.base ∧ 0 ≤ v.X ∧ 0 ≤ v.Y ∧ 0 ≤ z ∧ z < j.bv.NZ ∧
      Filled j.bv j.mesh z v.Y v.X := by
  obtain ⟨out, hr, hout⟩ := h
  obtain ⟨b', rfl, hb', _, hh⟩ := voxelize_exact j.bv j.mesh hd out hr
  dsimp only at hout
  obtain ⟨ord, hp, rfl⟩ := hout
  have hcol : b'.color = [] := by
    have : b'.ColorVoxels = none := by rw [hb']; exact hc
    unfold BinVOX.color
    rw [this]; rfl
  rw [hcol] at hp
  rw [mem_mrEmit, hp.mem_iff, List.mem_append]
  simp only [GoMap.keys, List.map_nil, List.not_mem_nil, or_false]
  rw [show ((⟨v.X, v.Y, z⟩ : Key) ∈ List.map (fun x => x.1) b'.white) ↔ _ from
    (GoMap.mem_keys_iff b'.white _).trans (hh _)]
  dsimp only
  constructor
  · rintro ⟨a, b, c, d, e, f, g⟩; exact ⟨a, b, c, d, f, g⟩
  · rintro ⟨a, b, c, d, f, g⟩; exact ⟨a, b, c, d, d, f, g⟩

/-- **C64.** For every float semantics, job, schedule and delivery order: the pixel `(i, j)` of slice
    `z` of stldice-mr is white iff *some* tile of the base fills the cell `(i, j, z)` of its own
    coordinates and *no* tile of a cut does: all tiles are drawn over one another at the origin. -/
theorem mr_superimposes [GoFloat F] (mbb : Box F) (scale : F) (dim nx ny nz : Int) (L : Layout F)
    (h : layout mbb scale dim nx ny nz = .ok L) (base : Mesh F × Box F)
    (cuts : List (Mesh F × Box F)) (z : Int) (img : Image)
    (hr : MrRun dim z (svxJobs L mbb nx ny nz (base :: cuts)) img) :
    Shows img dim dim
      (fun x y => (0 ≤ x ∧ 0 ≤ y ∧ 0 ≤ z ∧ z < L.dimZ) ∧
        (∃ t, InDims nx ny nz t ∧ Filled (tileModel L mbb t) base.1 z y x) ∧
        ¬ ∃ t, InDims nx ny nz t ∧ ∃ c ∈ cuts, Filled (tileModel L mbb t) c.1 z y x)
      (fun i j => (i, j)) := by
  obtain ⟨ess, hf, vs, _, hp, hi⟩ := hr
  obtain ⟨a1, a2, a3⟩ := mr_image_exact dim vs img hi
  refine ⟨a1, a2, ?_⟩
  intro i j
  rw [a3]
  obtain ⟨_, _, _, hx', hy', hz', _⟩ := layout_ok h
  have hmem : ∀ v : VoxelInfo, v ∈ vs ↔ ∃ job ∈ svxJobs L mbb nx ny nz (base :: cuts),
      v.Base = job.base ∧ 0 ≤ v.X ∧ 0 ≤ v.Y ∧ 0 ≤ z ∧ z < job.bv.NZ ∧
        Filled job.bv job.mesh z v.Y v.X := by
    intro v
    rw [hp.mem_iff]
    have h1 : v ∈ mrGroup z ess.flatten ↔ ∃ es ∈ ess, (z, v) ∈ es := by
      unfold mrGroup
      simp only [List.mem_map, List.mem_filter, List.mem_flatten, decide_eq_true_eq]
      constructor
      · rintro ⟨⟨z', v'⟩, ⟨⟨es, he, hm⟩, hz⟩, rfl⟩
        dsimp only at hz
        subst hz
        exact ⟨es, he, hm⟩
      · rintro ⟨es, he, hm⟩
        exact ⟨(z, v), ⟨⟨es, he, hm⟩, rfl⟩, rfl⟩
    rw [h1]
    have hall : ∀ job ∈ svxJobs L mbb nx ny nz (base :: cuts),
        job.bv.ColorVoxels = none ∧ ¬ zeroDim job.bv := by
      intro job hj
      refine ⟨svxJobs_color L mbb nx ny nz _ job hj, ?_⟩
      obtain ⟨t, _, rfl | ⟨c, _, rfl⟩⟩ := (mem_svxJobs _ _ _ _ _ _ _ _).mp hj
      · rintro (e | e | e)
        · exact hx' e
        · exact hy' e
        · exact hz' e
      · rintro (e | e | e)
        · exact hx' e
        · exact hy' e
        · exact hz' e
    generalize svxJobs L mbb nx ny nz (base :: cuts) = jobs at hf hall
    clear hp hi a3 h1
    induction hf with
    | nil => simp
    | @cons job es js ess' hj _ ih =>
      have ih := ih (fun a ha => hall a (List.mem_cons_of_mem _ ha))
      have hjob := mrEmit_exact job (hall job List.mem_cons_self).1 (hall job List.mem_cons_self).2 es hj z v
      simp only [List.mem_cons, exists_eq_or_imp]
      exact or_congr hjob ih
  have nzt : ∀ t, (tileModel L mbb t).NZ = L.dimZ := fun _ => rfl
  unfold BaseMinusCuts
  rw [hmem, hmem]
  dsimp only
  constructor
  · rintro ⟨c1, c2, c3, c4, ⟨job, hj, hb, d1, d2, d3, d4, d5⟩, hn⟩
    obtain ⟨t, ht, rfl | ⟨c, _, rfl⟩⟩ := (mem_svxJobs _ _ _ _ _ _ _ _).mp hj
    · refine ⟨c1, c2, c3, c4, ⟨d1, d2, d3, d4⟩, ⟨t, ht, d5⟩, ?_⟩
      rintro ⟨t', ht', c, hc, hfc⟩
      exact hn ⟨_, (mem_svxJobs _ _ _ _ _ _ _ _).mpr ⟨t', ht', Or.inr ⟨c, hc, rfl⟩⟩, rfl, d1, d2, d3, d4, hfc⟩
    · cases hb
  · rintro ⟨c1, c2, c3, c4, ⟨d1, d2, d3, d4⟩, ⟨t, ht, d5⟩, hn⟩
    refine ⟨c1, c2, c3, c4, ⟨_, (mem_svxJobs _ _ _ _ _ _ _ _).mpr ⟨t, ht, Or.inl rfl⟩, rfl, d1, d2, d3, d4, d5⟩, ?_⟩
    rintro ⟨job, hj, hb, _, _, _, _, hf'⟩
    obtain ⟨t', ht', rfl | ⟨c, hc, rfl⟩⟩ := (mem_svxJobs _ _ _ _ _ _ _ _).mp hj
    · cases hb
    · exact hn ⟨t', ht', c, hc, hf'⟩

/-- **C64.** With a single tile stldice-mr is right (exact arithmetic): the image shows the cells filled
    by the base and by no cut in the undiced voxelization. -/
theorem mr_single_tile (mbb : Box ℚ) (scale : ℚ) (dim : Int) (L : Layout ℚ)
    (h : layout mbb scale dim 1 1 1 = .ok L) (hs : 0 < scale) (hd : 0 < dim)
    (px : 0 < L.dimX) (py : 0 < L.dimY) (base : Mesh ℚ × Box ℚ)
    (cuts : List (Mesh ℚ × Box ℚ)) (z : Int) (hz : 0 ≤ z ∧ z < L.dimZ) (img : Image)
    (hr : MrRun dim z (svxJobs L mbb 1 1 1 (base :: cuts)) img) :
    Shows img dim dim (SliceSolid (wholeModel L mbb 1 1 1) base.1 (cuts.map Prod.fst) z)
      (fun i j => (i, j)) := by
  obtain ⟨a1, a2, a3⟩ := mr_superimposes mbb scale dim 1 1 1 L h base cuts z img hr
  refine ⟨a1, a2, ?_⟩
  intro i j
  rw [a3]
  have tf := fun (m : Mesh ℚ) (hx : 0 ≤ i) =>
    tiles_filled mbb scale dim 1 1 1 L h hs hd px py (by omega) m z j i 0 hx
  have e0 : z + 0 * L.dimZ = z := by rw [Int.zero_mul]; omega
  rw [e0] at tf
  have tf' : ∀ (m : Mesh ℚ), 0 ≤ i → ((∃ t, InDims 1 1 1 t ∧ Filled (tileModel L mbb t) m z j i) ↔
      Filled (wholeModel L mbb 1 1 1) m z j i) := by
    intro m hx
    rw [← tf m hx]
    constructor
    · rintro ⟨⟨X, Y, Z⟩, ht, hf⟩
      unfold InDims at ht
      dsimp only at ht
      have e1 : X = 0 := by omega
      have e2 : Y = 0 := by omega
      have e3 : Z = 0 := by omega
      subst e1 e2 e3
      refine ⟨0, 0, by omega, by omega, by omega, by omega, ?_⟩
      rw [Int.zero_mul, Int.zero_mul, Int.sub_zero, Int.sub_zero]
      exact hf
    · rintro ⟨tx, ty, h1, h2, h3, h4, hf⟩
      have e1 : tx = 0 := by omega
      have e2 : ty = 0 := by omega
      subst e1 e2
      rw [Int.zero_mul, Int.zero_mul, Int.sub_zero, Int.sub_zero] at hf
      exact ⟨⟨0, 0, 0⟩, by unfold InDims; decide, hf⟩
  unfold SliceSolid
  dsimp only
  constructor
  · rintro ⟨c1, c2, c3, c4, ⟨d1, _⟩, hb, hn⟩
    refine ⟨c1, c2, c3, c4, d1, (tf' base.1 d1).mp hb, ?_⟩
    intro c hc hf
    obtain ⟨f, hf1, rfl⟩ := List.mem_map.mp hc
    obtain ⟨t, ht, hft⟩ := (tf' f.1 d1).mpr hf
    exact hn ⟨t, ht, f, hf1, hft⟩
  · rintro ⟨c1, c2, c3, c4, d1, hb, hn⟩
    refine ⟨c1, c2, c3, c4, ⟨d1, c3, hz.1, hz.2⟩, (tf' base.1 d1).mpr hb, ?_⟩
    rintro ⟨t, ht, f, hf1, hft⟩
    exact hn f.1 (List.mem_map_of_mem hf1) ((tf' f.1 d1).mp ⟨t, ht, hft⟩)

/-! ## Concrete jobs -/

/-- One upright triangle through the middle of a 4 × 4 × 4 model. -/
def exTri : Mesh ℚ where
  heap := fun _ => ⟨⟨⟨1/2, 3/2, -1⟩, ⟨-1, 0, 0⟩⟩, ⟨⟨3/2, 3/2, 9⟩, ⟨-1, 0, 0⟩⟩, ⟨⟨5/2, 3/2, -1⟩, ⟨-1, 0, 0⟩⟩⟩
  Triangles := [7]

def exBox : Box ℚ := ⟨⟨0, 0, 0⟩, ⟨4, 4, 4⟩⟩

/-- With two tiles along z the agent exits on the first slice. -/
example (res : Option Image) (h : SliceRun 4 0 (svxJobs ⟨1, 1, 4, 4, 4, 4, 4, 2, 4⟩ exBox 1 1 2 [(exTri, exBox)]) res) :
    res = none := by
  refine (agent_fatal_iff exBox 4 4 1 1 2 _ (by decide +kernel) (exTri, exBox) [] 0 res h).mpr
    ⟨⟨0, 0, 1⟩, by unfold InDims; decide, by decide, (exTri, exBox), by simp, 1, 1, ?_⟩
  unfold Filled
  dsimp only
  refine ⟨by decide +kernel, Or.inl ⟨7, by decide, by decide, by decide +kernel, ?_⟩⟩
  have : intersectTriZPlane 7 (exTri.heap 7) (sliceHeight (tileModel ⟨1, 1, 4, 4, 4, 4, 4, 2, 4⟩ exBox ⟨0, 0, 1⟩) 0)
      = some ⟨⟨17/20, 3/2, 5/2⟩, ⟨43/20, 3/2, 5/2⟩, 7⟩ := by decide +kernel
  exact ⟨_, this, by decide +kernel⟩

/-- Two tiles along x: the triangle is shown across the tile boundary, the cell `(2, 1)` of the
    second tile at the pixel `(3, 3)`. -/
example : ∃ img, SliceRun 4 0 (svxJobs ⟨1, 1, 4, 4, 4, 2, 4, 4, 4⟩ exBox 2 1 1 [(exTri, exBox)]) (some img) ∧
    img.white 3 3 = true := by
  have hl : layout exBox 4 4 2 1 1 = .ok ⟨1, 1, 4, 4, 4, 2, 4, 4, 4⟩ := by decide +kernel
  obtain ⟨⟨img, hi⟩, _⟩ := agent_flat_ok exBox 4 4 2 1 _ hl (exTri, exBox) [] 0
  refine ⟨img, hi, ?_⟩
  obtain ⟨img', e, hs⟩ := slice_image_exact exBox 4 4 2 1 _ hl (by norm_num) (by norm_num) (by decide) (by decide)
    (by norm_num) (exTri, exBox) [] 0 (by norm_num) _ hi
  injection e with e
  subst e
  obtain ⟨_, _, hw⟩ := hs
  refine (hw 3 3).mpr ⟨by norm_num, by norm_num, by norm_num, by norm_num, by norm_num, ?_, by simp⟩
  unfold Filled
  dsimp only
  refine ⟨by decide +kernel, Or.inl ⟨7, by decide, by decide, by decide +kernel, ?_⟩⟩
  have : intersectTriZPlane 7 (exTri.heap 7) (sliceHeight (wholeModel ⟨1, 1, 4, 4, 4, 2, 4, 4, 4⟩ exBox 2 1 1) 0)
      = some ⟨⟨13/20, 3/2, 1/2⟩, ⟨47/20, 3/2, 1/2⟩, 7⟩ := by decide +kernel
  exact ⟨_, this, by decide +kernel⟩

/-- The same job with stldice-mr: the cell `(2, 1)`, which belongs to the second tile, is drawn at the
    place of the first tile's cell `(0, 1)`, where the model has nothing. -/
example (img : Image) (h : MrRun 4 0 (svxJobs ⟨1, 1, 4, 4, 4, 2, 4, 4, 4⟩ exBox 2 1 1 [(exTri, exBox)]) img) :
    img.white 0 1 = true := by
  have hl : layout exBox 4 4 2 1 1 = .ok ⟨1, 1, 4, 4, 4, 2, 4, 4, 4⟩ := by decide +kernel
  obtain ⟨_, _, hw⟩ := mr_superimposes exBox 4 4 2 1 1 _ hl (exTri, exBox) [] 0 img h
  refine (hw 0 1).mpr ⟨by norm_num, by norm_num, by norm_num, by norm_num,
    ⟨by decide, by decide, by decide, by decide⟩,
    ⟨⟨1, 0, 0⟩, by unfold InDims; decide, ?_⟩, by simp⟩
  unfold Filled
  dsimp only
  refine ⟨by decide +kernel, Or.inl ⟨7, by decide, by decide, by decide +kernel, ?_⟩⟩
  have : intersectTriZPlane 7 (exTri.heap 7) (sliceHeight (tileModel ⟨1, 1, 4, 4, 4, 2, 4, 4, 4⟩ exBox ⟨1, 0, 0⟩) 0)
      = some ⟨⟨13/20, 3/2, 1/2⟩, ⟨47/20, 3/2, 1/2⟩, 7⟩ := by decide +kernel
  exact ⟨_, this, by decide +kernel⟩

/-! ### The hypotheses are met -/

theorem exBox_layout : layout exBox (boxScale exBox) 4 2 1 1 = .ok ⟨1, 1, 4, 4, 4, 2, 4, 4, 4⟩ := by decide +kernel

/-- The agent answers the request for the first slice of this job. -/
theorem exAgent : ∃ img, AgentSliceRun 4 2 1 1 0 [(exTri, exBox)] (some img) := by
  obtain ⟨⟨img, hi⟩, _⟩ := agent_flat_ok exBox (boxScale exBox) 4 2 1 _ exBox_layout (exTri, exBox) [] 0
  exact ⟨img, Or.inl ⟨_, exBox_layout, by simp, hi⟩⟩

example (z y x : Int) (hx : 0 ≤ x) := tiles_filled exBox 4 4 2 1 1 ⟨1, 1, 4, 4, 4, 2, 4, 4, 4⟩ (by decide +kernel)
  (by norm_num) (by norm_num) (by decide) (by decide) (by norm_num) exTri z y x 0 hx

/-- It is answered although nothing is known of the runs but that they are runs of the agent. -/
example : ¬ ∃ f ∈ [(exTri, exBox)], ¬ ∃ L, layout f.2 (boxScale f.2) 4 2 1 1 = .ok L := by
  obtain ⟨img, h⟩ := exAgent
  intro hf
  have := (agent_flat_exits_iff 4 2 1 0 (exTri, exBox) [] (some img) h).mpr hf
  cases this

example : ∃ img : Image, some img = none ↔ (∃ f ∈ [(exTri, exBox)], ¬ ∃ L, layout f.2 (boxScale f.2) 4 2 1 1 = .ok L) ∨
    ∃ L, layout exBox (boxScale exBox) 4 2 1 1 = .ok L ∧ ∃ t, InDims 2 1 1 t ∧ t.Z ≠ 0 ∧
      ∃ f ∈ [(exTri, exBox)], ∃ x y, Filled (tileModel L exBox t) f.1 0 y x := by
  obtain ⟨img, h⟩ := exAgent
  exact ⟨img, agent_exits_iff 4 2 1 1 0 (exTri, exBox) [] (some img) h⟩

example : ∃ img, AgentSliceRun 4 2 1 1 0 [(exTri, exBox)] (some img) ∧ Shows img 6 6
    (SliceSolid (wholeModel ⟨1, 1, 4, 4, 4, 2, 4, 4, 4⟩ exBox 2 1 1) exTri [] 0) (fun i j => (i - 1, 4 - j)) := by
  obtain ⟨img, h⟩ := exAgent
  obtain ⟨L, hl, hf⟩ := agent_files_exact 4 2 1 0 (exTri, exBox) [] (by
    intro f hf
    rw [List.mem_singleton] at hf
    subst hf
    exact ⟨_, exBox_layout⟩) (by decide +kernel) (by norm_num) (by norm_num) (by norm_num)
  rw [exBox_layout] at hl
  cases hl
  obtain ⟨img', e, hs⟩ := hf (by decide) (by decide) _ h
  cases e
  exact ⟨img, h, hs⟩

example (img : Image) (hr : MrRun 4 0 (svxJobs ⟨1, 1, 4, 4, 4, 4, 4, 4, 4⟩ exBox 1 1 1 [(exTri, exBox)]) img) :=
  mr_single_tile exBox 4 4 _ (by decide +kernel) (by norm_num) (by norm_num) (by decide) (by decide) (exTri, exBox) [] 0
    (by decide) img hr

end StlDice
