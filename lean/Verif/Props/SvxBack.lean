import Verif.Props.SvxRead

/-! # Reading back what stl2svx wrote (C69) -/

namespace StlDice
open GoFloat BinVOX
variable {F : Type}

theorem takeDigits_short (w : Nat) (ds r : Bytes) (hd : ∀ c ∈ ds, isDigit c = true) (hl : ds.length ≤ w)
    (hr : ∀ c r', r = c :: r' → isDigit c = false) : takeDigits w (ds ++ r) = (ds, r) := by
  induction ds generalizing w with
  | nil =>
    cases w with
    | zero => rfl
    | succ w =>
      cases r with
      | nil => rfl
      | cons c r' =>
        show takeDigits (w + 1) (c :: r') = _
        rw [takeDigits, if_neg (by rw [hr c r' rfl]; decide)]
  | cons d ds ih =>
    cases w with
    | zero => cases hl
    | succ w =>
      show takeDigits (w + 1) (d :: (ds ++ r)) = _
      rw [takeDigits, if_pos (hd d List.mem_cons_self),
        ih w (fun c hc => hd c (List.mem_cons_of_mem _ hc)) (by simpa using hl)]

theorem takeDigits_long (w : Nat) (ds r : Bytes) (hd : ∀ c ∈ ds, isDigit c = true) (hl : w < ds.length) :
    ∃ a c b, takeDigits w (ds ++ r) = (a, c :: b) ∧ isDigit c = true := by
  induction ds generalizing w with
  | nil => cases hl
  | cons d ds ih =>
    cases w with
    | zero => exact ⟨[], d, ds ++ r, rfl, hd d List.mem_cons_self⟩
    | succ w =>
      obtain ⟨a, c, b, h1, h2⟩ := ih w (fun c hc => hd c (List.mem_cons_of_mem _ hc)) (by simpa using hl)
      refine ⟨d :: a, c, b, ?_, h2⟩
      show takeDigits (w + 1) (d :: (ds ++ r)) = _
      rw [takeDigits, if_pos (hd d List.mem_cons_self), h1]

theorem digitsVal_lt (ds : Bytes) (hd : ∀ c ∈ ds, isDigit c = true) : digitsVal ds < 10 ^ ds.length := by
  induction ds using List.reverseRecOn with
  | nil => decide
  | append_singleton ds d ih =>
    have h1 := ih (fun c hc => hd c (List.mem_append_left _ hc))
    have h2 := hd d (by simp)
    unfold isDigit at h2
    simp only [Bool.and_eq_true, decide_eq_true_eq] at h2
    have e : digitsVal (ds ++ [d]) = digitsVal ds * 10 + (d.toNat - 48) := by
      unfold digitsVal
      rw [List.foldl_append, List.foldl_cons, List.foldl_nil]
    rw [e, List.length_append, List.length_singleton, Nat.pow_succ]
    omega

theorem natDigitsRev_length (k : Nat) : ∀ fuel n : Nat, n < 10 ^ (k + 1) → (natDigitsRev fuel n).length ≤ k + 1 := by
  induction k with
  | zero =>
    intro fuel n h
    cases fuel with
    | zero => simp [natDigitsRev]
    | succ fuel =>
      rw [natDigitsRev, if_pos (by simpa using h)]
      simp
  | succ k ih =>
    intro fuel n h
    cases fuel with
    | zero => simp [natDigitsRev]
    | succ fuel =>
      rw [natDigitsRev]
      split
      · simp
      · have : n / 10 < 10 ^ (k + 1) := by
          rw [Nat.pow_succ] at h
          omega
        have := ih fuel (n / 10) this
        simp only [List.length_cons]
        omega

/-- The pattern of names written by stl2svx (with the prefix `out`). -/
def svxFmt (dim nx ny nz : Int) : SliceFmt where
  pre := fmtInt dim ++ ascii "/out-" ++ fmtInt dim ++ ascii "-" ++ fmtInt nx ++ ascii "-" ++ fmtInt ny ++
    ascii "-" ++ fmtInt nz ++ ascii "-"
  width := 4
  post := ascii ".png"

/-- **C69.** Reading the name of slice image `i` gives back `i` as long as the number has at most four
    digits; from 10000 on the names written cannot be read. -/
theorem sscanf_sliceName (dim nx ny nz i : Int) (hi : 0 ≤ i) :
    sscanf (svxFmt dim nx ny nz) (sliceName dim nx ny nz i) = if i ≤ 9999 then some i else none := by
  have hdig := padInt_digits 4 hi
  have hval : digitsVal (padInt 4 i) = i.toNat := by
    unfold padInt
    rw [digitsVal_zeros, fmtInt_nonneg hi, fmtNat_val]
  have hpng : ascii ".png" = 46 :: ascii "png" := by decide
  have hnil : padInt 4 i ≠ [] := by
    unfold padInt
    rw [fmtInt_nonneg hi]
    intro h
    exact fmtNat_ne_nil _ (List.append_eq_nil_iff.mp h).2
  have hstrip : stripPrefix (svxFmt dim nx ny nz).pre (sliceName dim nx ny nz i) =
      some (padInt 4 i ++ ascii ".png") := by
    have e : sliceName dim nx ny nz i = (svxFmt dim nx ny nz).pre ++ (padInt 4 i ++ ascii ".png") := by
      unfold sliceName svxFmt
      simp only [List.append_assoc]
    rw [e, stripPrefix_append]
  unfold sscanf
  rw [hstrip]
  have hlen : i ≤ 9999 → (padInt 4 i).length ≤ 4 := by
    intro h
    have := natDigitsRev_length 3 (i.toNat + 1) i.toNat (by norm_num; omega)
    unfold padInt
    rw [fmtInt_nonneg hi]
    unfold fmtNat
    simp only [List.length_append, List.length_replicate, List.length_reverse]
    omega
  have hlen2 : ¬ i ≤ 9999 → 4 < (padInt 4 i).length := by
    intro h
    by_contra hc
    have h1 := digitsVal_lt (padInt 4 i) hdig
    have h2 : 10 ^ (padInt 4 i).length ≤ 10 ^ 4 := Nat.pow_le_pow_right (by omega) (by omega)
    rw [hval] at h1
    have : i.toNat < 10 ^ 4 := by omega
    norm_num at this
    omega
  cases hp : padInt 4 i with
  | nil => exact absurd hp hnil
  | cons c r =>
    have hc := hdig c (by rw [hp]; exact List.mem_cons_self)
    have h43 : ¬ c = 43 := by rintro rfl; exact absurd hc (by decide)
    have h45 : ¬ c = 45 := by rintro rfl; exact absurd hc (by decide)
    show (if c = 43 then _ else if c = 45 then _ else
      (scanDigits (svxFmt dim nx ny nz).width (svxFmt dim nx ny nz).post (c :: (r ++ ascii ".png"))).map
        fun n : Nat => (n : Int)) = _
    rw [if_neg h43, if_neg h45]
    show (scanDigits 4 (ascii ".png") ((c :: r) ++ ascii ".png")).map _ = _
    rw [← hp]
    by_cases h : i ≤ 9999
    · rw [if_pos h]
      have e := takeDigits_short 4 (padInt 4 i) (ascii ".png") hdig (hlen h) (by
        intro c' r' h'
        rw [hpng] at h'
        injection h' with h' _
        subst h'
        decide)
      unfold scanDigits
      rw [e, hp]
      dsimp only
      have := stripPrefix_append (ascii ".png") []
      rw [List.append_nil] at this
      rw [this]
      dsimp only
      rw [← hp, hval, Option.map_some]
      congr 1
      omega
    · rw [if_neg h]
      obtain ⟨a, d, b, e, hd⟩ := takeDigits_long 4 (padInt 4 i) (ascii ".png") hdig (hlen2 h)
      unfold scanDigits
      rw [e]
      cases a with
      | nil => rfl
      | cons a0 a =>
        have : stripPrefix (ascii ".png") (d :: b) = none := by
          rw [hpng, stripPrefix, if_neg]
          rintro rfl
          exact absurd hd (by decide)
        dsimp only
        rw [this]
        rfl

example : sscanf (svxFmt 64 2 2 1) (ascii "64/out-64-2-2-1-0012.png") = some 12 := by decide

/-- An image as a decoder sees it: 8-bit grey PNG files are lossless. -/
def Image.pic (img : Image) : Pic := ⟨0, 0, img.W, img.H, fun x y => if img.white x y then 255 else 0⟩

theorem bright_pic (img : Image) (x y : Int) :
    Spec.Bright img.pic x y ↔ 0 ≤ x ∧ x < img.W ∧ 0 ≤ y ∧ y < img.H ∧ img.white x y = true := by
  unfold Spec.Bright Image.pic
  dsimp only
  cases img.white x y <;> simp

/-- The entry written for slice image number `i`, as svx2stl sees it. -/
def imageEntry (dim nx ny nz i : Int) (img : Image) : ZFile F :=
  ⟨sliceName dim nx ny nz i, true, none, some img.pic⟩

/-- The images of an SVX file of `n` slices: a black bottom and top around the slices. -/
def Spec.svxImages (dim : Int) (n : Nat) (img : Nat → Image) : Nat → Image :=
  fun k => if k = 0 ∨ k = n + 1 then Image.blank (dim + 2) (dim + 2) else img (k - 1)

/-- **C69.** An SVX file of `n ≤ 9998` slices as stl2svx writes it, with the images behind the manifest in
    any order, is read back as exactly the white pixels: pixel `(x, y)` of slice `z` becomes the
    voxel `(x, y, z + 1)`.  With 9999 slices or more it cannot be read. -/
theorem svx_readback [GoFloat F] (man : ZFile F) (es : List (ZFile F)) (b : BinVOX F)
    (dim nx ny nz : Int) (n : Nat) (img : Nat → Image)
    (ho : man.opens = true) (hm : man.name = ascii "manifest.xml")
    (hp : parseManifest man.xml = some (b, svxFmt dim nx ny nz))
    (hes : es.Perm ((List.range (n + 2)).map fun k =>
      imageEntry dim nx ny nz (k : Nat) (Spec.svxImages dim n img k))) :
    (n ≤ 9998 → ∃ m', svxLoad (man :: es) = .ok { b with WhiteVoxels := some m' } ∧ m'.WF ∧
      ∀ x y z, m'.has ⟨x, y, z⟩ = true ↔ 1 ≤ z ∧ z ≤ n ∧ 0 ≤ x ∧ x < (img (z.toNat - 1)).W ∧ 0 ≤ y ∧
        y < (img (z.toNat - 1)).H ∧ (img (z.toNat - 1)).white x y = true) ∧
    (9999 ≤ n → svxLoad (man :: es) = .err) := by
  have hmem : ∀ e : ZFile F, e ∈ es ↔ ∃ k : Nat, k < n + 2 ∧
      imageEntry dim nx ny nz (k : Nat) (Spec.svxImages dim n img k) = e := by
    intro e
    rw [hes.mem_iff, List.mem_map]
    simp only [List.mem_range]
  have hn : ∀ e ∈ es, e.name ≠ ascii "manifest.xml" := by
    intro e he
    obtain ⟨k, _, rfl⟩ := (hmem e).mp he
    exact sliceName_ne_manifest _ _ _ _ _
  have hscan : ∀ k : Nat, sscanf (svxFmt dim nx ny nz) (sliceName dim nx ny nz (k : Nat)) =
      if (k : Int) ≤ 9999 then some (k : Int) else none :=
    fun k => sscanf_sliceName dim nx ny nz k (by omega)
  obtain ⟨g1, g2⟩ := svxRead_exact man es b _ ho hm hp hn
  constructor
  · intro hle
    have hgood : ¬ ∃ e ∈ es, Spec.BadSlice (svxFmt dim nx ny nz) e := by
      rintro ⟨e, he, hb⟩
      obtain ⟨k, hk, rfl⟩ := (hmem e).mp he
      rcases hb with h | h | h
      · cases h
      · change sscanf (svxFmt dim nx ny nz) (sliceName dim nx ny nz (k : Nat)) = none at h
        rw [hscan, if_pos (by omega)] at h
        cases h
      · cases h
    obtain ⟨m', k1, k2, k3⟩ := g2 hgood
    refine ⟨m', k1, k2, ?_⟩
    intro x y z
    rw [k3]
    constructor
    · rintro ⟨e, he, hs, pic, hpic, hb⟩
      obtain ⟨k, hk, rfl⟩ := (hmem e).mp he
      change sscanf (svxFmt dim nx ny nz) (sliceName dim nx ny nz (k : Nat)) = some z at hs
      rw [hscan, if_pos (by omega)] at hs
      injection hs with hs
      injection hpic with hpic
      subst hpic hs
      rw [bright_pic] at hb
      unfold Spec.svxImages at hb
      by_cases hk0 : k = 0 ∨ k = n + 1
      · rw [if_pos hk0] at hb
        cases hb.2.2.2.2
      · rw [if_neg hk0] at hb
        rw [Int.toNat_natCast]
        exact ⟨by omega, by omega, hb⟩
    · rintro ⟨h1, h2, hb⟩
      have hz : ((z.toNat : Nat) : Int) = z := by omega
      refine ⟨_, (hmem _).mpr ⟨z.toNat, by omega, rfl⟩, ?_, _, rfl, ?_⟩
      · show sscanf (svxFmt dim nx ny nz) (sliceName dim nx ny nz ((z.toNat : Nat) : Int)) = some z
        rw [hscan, if_pos (by omega), hz]
      · rw [bright_pic]
        unfold Spec.svxImages
        rw [if_neg (by omega)]
        exact hb
  · intro hge
    apply g1
    refine ⟨_, (hmem _).mpr ⟨n + 1, by omega, rfl⟩, Or.inr (Or.inl ?_)⟩
    show sscanf (svxFmt dim nx ny nz) (sliceName dim nx ny nz ((n + 1 : Nat) : Int)) = none
    rw [hscan, if_neg (by omega)]

/-- **C69.** Put together with what the images show: if slice image `z` shows the cells `solid z`
    (as `slice_image_exact` says), all of them within the image, the model read back has, for each of them,
    the voxel `(x + 1, dim - y, z + 1)` and no other: the model is shifted by one voxel and *mirrored*
    along y. -/
theorem svx_readback_mirrored [GoFloat F] (man : ZFile F) (es : List (ZFile F)) (b : BinVOX F)
    (dim nx ny nz : Int) (n : Nat) (img : Nat → Image) (solid : Nat → Int → Int → Prop)
    (ho : man.opens = true) (hm : man.name = ascii "manifest.xml")
    (hp : parseManifest man.xml = some (b, svxFmt dim nx ny nz))
    (hes : es.Perm ((List.range (n + 2)).map fun k =>
      imageEntry dim nx ny nz (k : Nat) (Spec.svxImages dim n img k)))
    (hshow : ∀ z < n, Spec.Shows (img z) (dim + 2) (dim + 2) (solid z) (fun i j => (i - 1, dim - j)))
    (hin : ∀ z x y, solid z x y → 0 ≤ x ∧ x ≤ dim ∧ 0 ≤ y ∧ y ≤ dim) (hle : n ≤ 9998) :
    ∃ m', svxLoad (man :: es) = .ok { b with WhiteVoxels := some m' } ∧ m'.WF ∧
      ∀ k : Key, m'.has k = true ↔ ∃ z x y, z < n ∧ solid z x y ∧ k = ⟨x + 1, dim - y, z + 1⟩ := by
  obtain ⟨m', k1, k2, k3⟩ := (svx_readback man es b dim nx ny nz n img ho hm hp hes).1 hle
  refine ⟨m', k1, k2, ?_⟩
  rintro ⟨X, Y, Z⟩
  rw [k3]
  constructor
  · rintro ⟨h1, h2, h3, h4, h5, h6, h7⟩
    obtain ⟨a1, a2, a3⟩ := hshow (Z.toNat - 1) (by omega)
    obtain ⟨_, _, _, _, hs⟩ := (a3 X Y).mp h7
    refine ⟨Z.toNat - 1, X - 1, dim - Y, by omega, hs, ?_⟩
    rw [Key.mk.injEq]
    omega
  · rintro ⟨z, x, y, hz, hs, e⟩
    obtain ⟨rfl, rfl, rfl⟩ := (Key.mk.injEq _ _ _ _ _ _).mp e
    obtain ⟨a1, a2, a3⟩ := hshow z hz
    obtain ⟨b1, b2, b3, b4⟩ := hin z x y hs
    have ez : ((z : Int) + 1).toNat - 1 = z := by omega
    rw [ez, a1, a2]
    refine ⟨by omega, by omega, by omega, by omega, by omega, by omega, (a3 _ _).mpr ?_⟩
    refine ⟨by omega, by omega, by omega, by omega, ?_⟩
    have e1 : x + 1 - 1 = x := by omega
    have e2 : dim - (dim - y) = y := by omega
    dsimp only
    rw [e1, e2]
    exact hs

/-- A file with one slice of a 2 × 2 grid in which the cell `(1, 0)` is solid: read back it is the voxel
    `(2, 2, 1)`. -/
def oneCell : Image := ⟨4, 4, fun x y => x == 2 && y == 2⟩

def oneManifest : ZFile ℚ :=
  ⟨ascii "manifest.xml", true, some ⟨4, 3, 4, 1 / 1000, [⟨true, some (svxFmt 2 1 1 1)⟩]⟩, none⟩

example : ∃ m', svxLoad (oneManifest :: ((List.range 3).map fun k =>
      imageEntry 2 1 1 1 (k : Nat) (Spec.svxImages 2 1 (fun _ => oneCell) k))) =
      .ok { (⟨4, 3, 4, 0, 0, 0, 1 / 1000 * 1000, some [], none⟩ : BinVOX ℚ) with WhiteVoxels := some m' } ∧
      m'.WF ∧ ∀ k : Key, m'.has k = true ↔ k = ⟨2, 2, 1⟩ := by
  obtain ⟨m', h1, h2, h3⟩ := (svx_readback oneManifest _ _ 2 1 1 1 1 (fun _ => oneCell) rfl rfl rfl
    (List.Perm.refl _)).1 (by omega)
  refine ⟨m', h1, h2, ?_⟩
  rintro ⟨X, Y, Z⟩
  rw [h3, Key.mk.injEq]
  simp only [oneCell, Bool.and_eq_true, beq_iff_eq]
  omega

/-- The file numbers `0012` and, of a model with more than 9998 layers, `10000`. -/
example : sscanf (svxFmt 64 2 2 1) (sliceName 64 2 2 1 12) = some 12 ∧ sscanf (svxFmt 64 2 2 1) (sliceName 64 2 2 1 10000) = none :=
  ⟨(sscanf_sliceName 64 2 2 1 12 (by omega)).trans (if_pos (by omega)),
    (sscanf_sliceName 64 2 2 1 10000 (by omega)).trans (if_neg (by omega))⟩

/-- The same file: the picture shows the cell `(1, 0)` of the grid. -/
example := svx_readback_mirrored oneManifest ((List.range 3).map fun k =>
      imageEntry 2 1 1 1 (k : Nat) (Spec.svxImages 2 1 (fun _ => oneCell) k)) _ 2 1 1 1 1 (fun _ => oneCell)
    (fun _ x y => x = 1 ∧ y = 0) rfl rfl rfl (List.Perm.refl _) (by
      intro z _
      refine ⟨rfl, rfl, fun i j => ?_⟩
      simp only [oneCell, Bool.and_eq_true, beq_iff_eq]
      omega) (by omega) (by omega)

end StlDice
