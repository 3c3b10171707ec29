import Verif.Model.SvxRead
import Verif.Lemmas.GoMap
import Verif.Lemmas.Grid
import Verif.Lemmas.Text
import Verif.Props.SvxNames
import Verif.Props.Svx
import Mathlib.Data.List.Induction

/-! # svx2stl (C47, C48, C69) -/

namespace StlDice
open GoFloat BinVOX
variable {F : Type}

theorem mem_pixels (img : Pic) (x y : Int) :
    (x, y) ∈ img.pixels ↔ img.minX ≤ x ∧ x < img.maxX ∧ img.minY ≤ y ∧ y < img.maxY := by
  unfold Pic.pixels
  rw [List.mem_flatMap]
  constructor
  · rintro ⟨y', hy, h⟩
    obtain ⟨x', hx, e⟩ := List.mem_map.mp h
    injection e with e1 e2
    subst e1 e2
    rw [mem_intRange] at hx hy
    omega
  · intro h
    refine ⟨y, (mem_intRange _ _ _).mpr (by omega), List.mem_map.mpr ⟨x, (mem_intRange _ _ _).mpr (by omega), rfl⟩⟩

/-- The pixel `(x, y)` lies in the image and is at least half bright. -/
def Spec.Bright (img : Pic) (x y : Int) : Prop :=
  img.minX ≤ x ∧ x < img.maxX ∧ img.minY ≤ y ∧ y < img.maxY ∧ 128 ≤ img.gray x y

theorem scan_fold (img : Pic) (z : Int) (ps : List (Int × Int)) (b : BinVOX F) (m : WhiteVoxelMap)
    (hb : b.WhiteVoxels = some m) (hw : m.WF) :
    ∃ m' : WhiteVoxelMap, ps.foldl (scanPixel img z) (.ok b) = .ok { b with WhiteVoxels := some m' } ∧ m'.WF ∧
      ∀ k : Key, m'.has k = true ↔ m.has k = true ∨ k.Z = z ∧ (k.X, k.Y) ∈ ps ∧ 128 ≤ img.gray k.X k.Y := by
  induction ps generalizing b m with
  | nil =>
    refine ⟨m, ?_, hw, ?_⟩
    · show Res.ok b = _
      obtain ⟨_, _, _, _, _, _, _, W, C⟩ := b
      dsimp only at hb ⊢
      rw [hb]
    · intro k
      simp
  | cons p ps ih =>
    rw [List.foldl_cons]
    unfold scanPixel
    dsimp only
    by_cases hp : 128 ≤ img.gray p.1 p.2
    · rw [if_pos hp]
      have e : b.Add p.1 p.2 z = .ok { b with WhiteVoxels := some (m.set ⟨p.1, p.2, z⟩ ()) } := by
        unfold BinVOX.Add
        rw [hb]
      rw [e]
      obtain ⟨m', h1, h2, h3⟩ := ih { b with WhiteVoxels := some (m.set ⟨p.1, p.2, z⟩ ()) }
        (m.set ⟨p.1, p.2, z⟩ ()) rfl (GoMap.WF_set hw _ _)
      refine ⟨m', h1, h2, ?_⟩
      intro k
      rw [h3, GoMap.has_set]
      obtain ⟨X, Y, Z⟩ := k
      obtain ⟨px, py⟩ := p
      simp only [Bool.or_eq_true, decide_eq_true_eq, Key.mk.injEq, List.mem_cons, Prod.mk.injEq] at *
      constructor
      · rintro ((⟨rfl, rfl, rfl⟩ | h) | ⟨a, b', c⟩)
        · exact Or.inr ⟨rfl, Or.inl ⟨rfl, rfl⟩, hp⟩
        · exact Or.inl h
        · exact Or.inr ⟨a, Or.inr b', c⟩
      · rintro (h | ⟨rfl, ⟨rfl, rfl⟩ | b', c⟩)
        · exact Or.inl (Or.inr h)
        · exact Or.inl (Or.inl ⟨rfl, rfl, rfl⟩)
        · exact Or.inr ⟨rfl, b', c⟩
    · rw [if_neg hp]
      obtain ⟨m', h1, h2, h3⟩ := ih b m hb hw
      refine ⟨m', h1, h2, ?_⟩
      intro k
      rw [h3]
      obtain ⟨X, Y, Z⟩ := k
      obtain ⟨px, py⟩ := p
      simp only [List.mem_cons, Prod.mk.injEq] at *
      constructor
      · rintro (h | ⟨a, b', c⟩)
        · exact Or.inl h
        · exact Or.inr ⟨a, Or.inr b', c⟩
      · rintro (h | ⟨a, ⟨rfl, rfl⟩ | b', c⟩)
        · exact Or.inl h
        · exact absurd c hp
        · exact Or.inr ⟨a, b', c⟩

/-- **C47.** Scanning an image adds exactly its bright pixels at height `z`, keeps all voxels there
    were, and changes nothing else. -/
theorem scanImage_exact (img : Pic) (z : Int) (b : BinVOX F) (m : WhiteVoxelMap)
    (hb : b.WhiteVoxels = some m) (hw : m.WF) :
    ∃ m', scanImage img z b = .ok { b with WhiteVoxels := some m' } ∧ m'.WF ∧
      ∀ x y z', m'.has ⟨x, y, z'⟩ = true ↔ m.has ⟨x, y, z'⟩ = true ∨ z' = z ∧ Spec.Bright img x y := by
  obtain ⟨m', h1, h2, h3⟩ := scan_fold img z img.pixels b m hb hw
  refine ⟨m', h1, h2, ?_⟩
  intro x y z'
  rw [h3]
  dsimp only
  rw [mem_pixels]
  unfold Spec.Bright
  tauto

/-! ## Whole files -/

/-- The entry cannot be used as a slice under the name pattern `f`. -/
def Spec.BadSlice (f : SliceFmt) (e : ZFile F) : Prop :=
  e.opens = false ∨ sscanf f e.name = none ∨ e.png = none

/-- The entry `e` is slice number `n` and the pixel `(x, y)` of its image is bright. -/
def Spec.SliceBright (f : SliceFmt) (e : ZFile F) (x y n : Int) : Prop :=
  sscanf f e.name = some n ∧ ∃ img, e.png = some img ∧ Spec.Bright img x y

theorem readEntries_images [GoFloat F] (f : SliceFmt) (es : List (ZFile F)) (b : BinVOX F) (m : WhiteVoxelMap)
    (hb : b.WhiteVoxels = some m) (hw : m.WF) (hn : ∀ e ∈ es, e.name ≠ ascii "manifest.xml") :
    ((∃ e ∈ es, Spec.BadSlice f e) → readEntries (some b) (some f) es = .err) ∧
    ((¬ ∃ e ∈ es, Spec.BadSlice f e) → ∃ m', readEntries (some b) (some f) es =
      .ok (some { b with WhiteVoxels := some m' }) ∧ m'.WF ∧
      ∀ x y z, m'.has ⟨x, y, z⟩ = true ↔ m.has ⟨x, y, z⟩ = true ∨ ∃ e ∈ es, Spec.SliceBright f e x y z) := by
  induction es generalizing b m with
  | nil =>
    constructor
    · rintro ⟨_, h, _⟩; cases h
    · intro _
      refine ⟨m, ?_, hw, ?_⟩
      · unfold readEntries
        obtain ⟨_, _, _, _, _, _, _, W, C⟩ := b
        dsimp only at hb ⊢
        rw [hb]
      · intro x y z
        simp
  | cons e es ih =>
    have hne := hn e List.mem_cons_self
    by_cases hbad : Spec.BadSlice f e
    · refine ⟨fun _ => ?_, fun h => absurd ⟨e, List.mem_cons_self, hbad⟩ h⟩
      unfold readEntries
      by_cases ho : e.opens = false
      · rw [if_pos ho]
      · rw [if_neg ho, if_neg hne]
        dsimp only
        rcases hbad with h | h | h
        · exact absurd h ho
        · rw [h]
        · rw [h]
          split <;> rfl
    · have ho : ¬ e.opens = false := fun h => hbad (Or.inl h)
      cases hsn : sscanf f e.name with
      | none => exact absurd (Or.inr (Or.inl hsn)) hbad
      | some n =>
        cases hpg : e.png with
        | none => exact absurd (Or.inr (Or.inr hpg)) hbad
        | some img =>
          obtain ⟨m1, h1, h2, h3⟩ := scanImage_exact img n b m hb hw
          have hstep : readEntries (some b) (some f) (e :: es) =
              readEntries (some { b with WhiteVoxels := some m1 }) (some f) es := by
            rw [readEntries, if_neg ho, if_neg hne]
            dsimp only
            rw [hsn]
            dsimp only
            rw [hpg]
            dsimp only
            rw [h1]
          obtain ⟨g1, g2⟩ := ih { b with WhiteVoxels := some m1 } m1 rfl h2
            (fun e' he' => hn e' (List.mem_cons_of_mem _ he'))
          rw [hstep]
          constructor
          · rintro ⟨e', he', hb'⟩
            rcases List.mem_cons.mp he' with rfl | he'
            · exact absurd hb' hbad
            · exact g1 ⟨e', he', hb'⟩
          · intro hno
            obtain ⟨m', k1, k2, k3⟩ := g2 (fun ⟨e', he', hb'⟩ => hno ⟨e', List.mem_cons_of_mem _ he', hb'⟩)
            refine ⟨m', k1, k2, ?_⟩
            intro x y z
            rw [k3, h3]
            constructor
            · rintro ((h | ⟨rfl, h⟩) | ⟨e', he', h⟩)
              · exact Or.inl h
              · exact Or.inr ⟨e, List.mem_cons_self, hsn, img, hpg, h⟩
              · exact Or.inr ⟨e', List.mem_cons_of_mem _ he', h⟩
            · rintro (h | ⟨e', he', h⟩)
              · exact Or.inl (Or.inl h)
              · rcases List.mem_cons.mp he' with rfl | he'
                · obtain ⟨q1, img', q2, q3⟩ := h
                  rw [hsn] at q1
                  rw [hpg] at q2
                  injection q1 with q1
                  injection q2 with q2
                  subst q1 q2
                  exact Or.inl (Or.inr ⟨rfl, q3⟩)
                · exact Or.inr ⟨e', he', h⟩

/-- **C47.** An archive that starts with a usable manifest and holds no other entry of that name is
    read completely iff every other entry opens, has a name of the manifest's pattern and decodes as
    an image; the model then has the manifest's grid size and exactly the bright pixels of the images
    as voxels, each at the height its name gives.  Otherwise the read is an error. -/
theorem svxRead_exact [GoFloat F] (man : ZFile F) (es : List (ZFile F)) (b : BinVOX F) (f : SliceFmt)
    (ho : man.opens = true) (hm : man.name = ascii "manifest.xml") (hp : parseManifest man.xml = some (b, f))
    (hn : ∀ e ∈ es, e.name ≠ ascii "manifest.xml") :
    ((∃ e ∈ es, Spec.BadSlice f e) → svxLoad (man :: es) = .err) ∧
    ((¬ ∃ e ∈ es, Spec.BadSlice f e) → ∃ m', svxLoad (man :: es) = .ok { b with WhiteVoxels := some m' } ∧
      m'.WF ∧ ∀ x y z, m'.has ⟨x, y, z⟩ = true ↔ ∃ e ∈ es, Spec.SliceBright f e x y z) := by
  have hw : b.WhiteVoxels = some [] := by
    unfold parseManifest at hp
    split at hp
    · cases hp
    · split at hp
      · cases hp
      · split at hp
        · cases hp
        · injection hp with hp
          injection hp with hp1 hp2
          rw [← hp1]
  have hstep : svxRead (man :: es) = readEntries (some b) (some f) es := by
    unfold svxRead
    rw [readEntries, if_neg (by rw [ho]; decide), if_pos hm, hp]
  obtain ⟨g1, g2⟩ := readEntries_images f es b [] hw GoMap.WF_nil hn
  unfold svxLoad
  rw [hstep]
  constructor
  · intro h
    rw [g1 h]
  · intro h
    obtain ⟨m', k1, k2, k3⟩ := g2 h
    rw [k1]
    refine ⟨m', rfl, k2, ?_⟩
    intro x y z
    rw [k3]
    constructor
    · rintro (h | h)
      · cases h
      · exact h
    · exact Or.inr

/-- **C47.** An image before the manifest makes the archive unreadable, even if everything is there. -/
theorem svxRead_image_first [GoFloat F] (e : ZFile F) (es : List (ZFile F)) (hn : e.name ≠ ascii "manifest.xml") :
    svxLoad (e :: es) = .err := by
  have h : readEntries none none (e :: es) = .err := by
    rw [readEntries]
    by_cases ho : e.opens = false
    · rw [if_pos ho]
    · rw [if_neg ho, if_neg hn]
  unfold svxLoad svxRead
  rw [h]

/-- **C47.** An archive without entries crashes the program. -/
theorem svxRead_empty_panics [GoFloat F] : svxLoad ([] : List (ZFile F)) = .panic := rfl

/-! ## The manifest -/

/-- **C48.** What the model takes from the manifest: the grid size, and the voxel size (converted to
    mm) as its *scale*; the name pattern is the one of the last density channel. -/
theorem parseManifest_exact [GoFloat F] (v : SvxGrid F) (b : BinVOX F) (f : SliceFmt)
    (h : parseManifest (some v) = some (b, f)) :
    b.NX = v.X ∧ b.NY = v.Y ∧ b.NZ = v.Z ∧ b.Scale = mul v.voxelSize (lit 1000) ∧
    b.TX = ofInt 0 ∧ b.TY = ofInt 0 ∧ b.TZ = ofInt 0 ∧
    ∃ pre c post, v.channels = pre ++ c :: post ∧ c.density = true ∧ c.slices = some f ∧
      ∀ d ∈ post, d.density = false := by
  unfold parseManifest at h
  dsimp only at h
  split at h
  · cases h
  · split at h
    · cases h
    · rename_i g hg
      injection h with h
      injection h with h1 h2
      subst h1 h2
      refine ⟨rfl, rfl, rfl, rfl, rfl, rfl, rfl, ?_⟩
      clear * - hg
      generalize v.channels = cs at hg
      induction cs using List.reverseRecOn with
      | nil => cases hg
      | append_singleton cs c ih =>
        rw [List.foldl_append, List.foldl_cons, List.foldl_nil] at hg
        by_cases hc : c.density = true
        · rw [if_pos hc] at hg
          exact ⟨cs, c, [], rfl, hc, hg, fun _ h => by cases h⟩
        · rw [if_neg hc] at hg
          obtain ⟨pre, c', post, e1, e2, e3, e4⟩ := ih hg
          refine ⟨pre, c', post ++ [c], by rw [e1]; simp, e2, e3, ?_⟩
          intro d hd
          rcases List.mem_append.mp hd with hd | hd
          · exact e4 d hd
          · rw [List.mem_singleton.mp hd]; simpa using hc

/-- **C48.** In exact arithmetic the pitch of the model read is the manifest's voxel size *divided by
    the longest side of the grid*; it is the manifest's voxel size iff the grid is a single voxel. -/
theorem svx_pitch (v : SvxGrid ℚ) (b : BinVOX ℚ) (f : SliceFmt)
    (h : parseManifest (some v) = some (b, f)) (hv : 0 < v.voxelSize) (hd : 0 < b.Dim) :
    1 / b.VoxelsPerMM = v.voxelSize * 1000 / b.Dim ∧
    (1 / b.VoxelsPerMM = v.voxelSize * 1000 ↔ b.Dim = 1) := by
  obtain ⟨_, _, _, hs, _⟩ := parseManifest_exact v b f h
  have hs' : b.Scale = v.voxelSize * 1000 := hs
  have hpos : 0 < b.Scale := by rw [hs']; linarith
  have hdq : (0 : ℚ) < b.Dim := by exact_mod_cast hd
  have e : b.VoxelsPerMM = (b.Dim : ℚ) / b.Scale := by
    unfold BinVOX.VoxelsPerMM vpmmOf
    rw [if_neg]
    · rfl
    · show ¬ decide (b.Scale ≤ ((0 : Int) : ℚ)) = true
      simp only [Int.cast_zero, decide_eq_true_eq, not_le]
      exact hpos
  have e2 : 1 / b.VoxelsPerMM = v.voxelSize * 1000 / b.Dim := by
    rw [e, one_div, inv_div, hs']
  refine ⟨e2, ?_⟩
  rw [e2, div_eq_iff hdq.ne']
  have hv' : v.voxelSize * 1000 ≠ 0 := by linarith
  constructor
  · intro h
    have : (b.Dim : ℚ) = 1 := by
      have h' : v.voxelSize * 1000 * 1 = v.voxelSize * 1000 * (b.Dim : ℚ) := by rw [mul_one]; exact h
      exact (mul_left_cancel₀ hv' h').symm
    exact_mod_cast this
  · intro h
    rw [h]
    norm_num

/-! ### The hypotheses are met -/

/-- An archive with a grid of 3 × 3 × 1 and one image in which the pixel `(1, 2)` is bright. -/
def exSvxMan : ZFile ℚ :=
  ⟨ascii "manifest.xml", true, some ⟨3, 3, 1, 1 / 1000, [⟨false, none⟩, ⟨true, some ⟨ascii "slice", 4, ascii ".png"⟩⟩]⟩, none⟩

def exSvxPic : Pic := ⟨0, 0, 3, 3, fun x y => if x = 1 ∧ y = 2 then 200 else 0⟩

def exSvxImage : ZFile ℚ := ⟨ascii "slice0000.png", true, none, some exSvxPic⟩

def exSvxBase : BinVOX ℚ := ⟨3, 3, 1, 0, 0, 0, 1 / 1000 * 1000, some [], none⟩

theorem exSvx_manifest : parseManifest exSvxMan.xml = some (exSvxBase, ⟨ascii "slice", 4, ascii ".png"⟩) := by rfl

theorem exSvx_good : ¬ ∃ e ∈ [exSvxImage], Spec.BadSlice ⟨ascii "slice", 4, ascii ".png"⟩ e := by
  rintro ⟨e, he, hb⟩
  rw [List.mem_singleton] at he
  subst he
  rcases hb with h | h | h
  · exact absurd h (by decide)
  · exact absurd h (by decide)
  · exact absurd h nofun

/-- The voxel is read. -/
example : ∃ m' : WhiteVoxelMap, svxLoad [exSvxMan, exSvxImage] = .ok { exSvxBase with WhiteVoxels := some m' } ∧ m'.has ⟨1, 2, 0⟩ = true := by
  obtain ⟨m', h1, _, h3⟩ := (svxRead_exact exSvxMan [exSvxImage] _ _ rfl rfl exSvx_manifest (by decide)).2 exSvx_good
  exact ⟨m', h1, (h3 1 2 0).mpr ⟨exSvxImage, by simp, by decide, exSvxPic, rfl, by unfold Spec.Bright; decide⟩⟩

/-- The image first: refused. -/
example : svxLoad [exSvxImage, exSvxMan] = .err := svxRead_image_first _ _ (by decide)

example := scanImage_exact exSvxPic 0 exSvxBase [] rfl GoMap.WF_nil

/-- The pitch read is a third of the one the manifest states. -/
example : 1 / exSvxBase.VoxelsPerMM = 1 / 1000 * 1000 / (3 : Int) :=
  (svx_pitch _ _ _ exSvx_manifest (by norm_num) (by decide +kernel)).1

example := parseManifest_exact _ _ _ exSvx_manifest

end StlDice
