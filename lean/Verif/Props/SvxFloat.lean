import Verif.Props.DiceFloat
import Verif.Props.SvxLocalBack

/-! # Slice images, archives and what is read from them, in float64 (C102) -/

namespace StlDice
open Spec GoFloat BinVOX F64

namespace Spec

/-- A job whose grid has `n` voxels along the axes and whose numbers are of moderate size (`R` mm), with all its files in
    general position to its grid. -/
structure JobPlaced (R : ℚ) (mbb : Box F64) (scale : F64) (dim : Int) (n : Key) (files : List (Mesh F64)) : Prop where
  size : 0 < scale.val
  voxels : 0 < dim ∧ dim ≤ 2 ^ 50
  nx : 0 < n.X ∧ n.X ≤ 2 ^ 50
  ny : 0 < n.Y ∧ n.Y ≤ 2 ^ 50
  nz : 0 < n.Z ∧ n.Z ≤ 2 ^ 50
  x : |mbb.Min.X.val| + (n.X : ℚ) / (dim / scale.val) ≤ R
  y : |mbb.Min.Y.val| + (n.Y : ℚ) / (dim / scale.val) ≤ R
  z : |mbb.Min.Z.val| + (n.Z : ℚ) / (dim / scale.val) ≤ R
  general : ∀ m ∈ files, GeneralPosition R (gridPart mbb scale dim n ⟨0, 0, 0⟩) (exactMesh m)

end Spec

/-- What a file fills, in float64 and in exact arithmetic. -/
theorem filled_same {R : ℚ} {b : BinVOX ℚ} {b' : BinVOX F64} {m : Mesh F64} (hn : NearModel R b b')
    (hg : GeneralPosition R b (exactMesh m)) {zi : Int} (h0 : 0 ≤ zi) (h1 : zi < b.NZ) (y x : Int) :
    Filled b' m zi y x ↔ Filled b (exactMesh m) zi y x := by
  unfold Filled
  have hT : Touches b' m zi y = Touches b (exactMesh m) zi y := by
    funext p x
    exact propext (touches_same hn hg h0 h1 y p x)
  have hk : ∀ c x, crossings m.Triangles (Touches b (exactMesh m) zi y) (crossing m) c x =
      crossings (exactMesh m).Triangles (Touches b (exactMesh m) zi y) (crossing (exactMesh m)) c x :=
    fun c x => crossings_kind (fun p hp => crossing_same hg hp) c x
  have hI : Inside m.Triangles (Touches b (exactMesh m) zi y) (crossing m) x ↔
      Inside (exactMesh m).Triangles (Touches b (exactMesh m) zi y) (crossing (exactMesh m)) x := by
    unfold Inside Enters Leaves
    simp only [hk]
  dsimp only
  rw [hT, hI, hn.nx]

/-- The parts of a grid, among each other. -/
theorem gridPart_sub {mbb : Box F64} {scale : F64} {dim : Int} {n n' o : Key} (V0 : 0 < (dim : ℚ) / scale.val) (hn : 0 < n.X)
    (hn' : 0 < n'.X) : SubGrid (gridPart mbb scale dim n ⟨0, 0, 0⟩) (gridPart mbb scale dim n' o) o.X o.Y o.Z := by
  have v1 := gridPart_vpmm (mbb := mbb) (n := n) (o := ⟨0, 0, 0⟩) V0 hn
  have v2 := gridPart_vpmm (mbb := mbb) (n := n') (o := o) V0 hn'
  refine ⟨v2.trans v1.symm, by rw [v1]; exact V0, ?_, ?_, ?_⟩
  · rw [v1]
    show mbb.Min.X.val + (o.X : ℚ) / (dim / scale.val) =
      mbb.Min.X.val + ((0 : Int) : ℚ) / (dim / scale.val) + (o.X : ℚ) * (1 / (dim / scale.val))
    rw [Int.cast_zero, zero_div, add_zero, mul_one_div]
  · rw [v1]
    show mbb.Min.Y.val + (o.Y : ℚ) / (dim / scale.val) =
      mbb.Min.Y.val + ((0 : Int) : ℚ) / (dim / scale.val) + (o.Y : ℚ) * (1 / (dim / scale.val))
    rw [Int.cast_zero, zero_div, add_zero, mul_one_div]
  · rw [v1]
    show mbb.Min.Z.val + (o.Z : ℚ) / (dim / scale.val) =
      mbb.Min.Z.val + ((0 : Int) : ℚ) / (dim / scale.val) + (o.Z : ℚ) * (1 / (dim / scale.val))
    rw [Int.cast_zero, zero_div, add_zero, mul_one_div]

theorem mul_room {t n d : Int} (h0 : 0 ≤ t) (h1 : t < n) (h2 : 0 < d) : 0 ≤ t * d ∧ t * d + d ≤ n * d := by
  refine ⟨Int.mul_nonneg h0 h2.le, ?_⟩
  have : (t + 1) * d ≤ n * d := Int.mul_le_mul_of_nonneg_right (by omega) h2.le
  rw [Int.add_mul, Int.one_mul] at this
  exact this

/-- A tile of a placed job fills in float64 what it fills of the grid in exact arithmetic. -/
theorem tile_same {mbb : Box F64} {scale : F64} {dim nx ny : Int} {L : Layout F64} {R : ℚ} {files : List (Mesh F64)}
    (h : layout mbb scale dim nx ny 1 = .ok L) (hn : 0 < nx ∧ 0 < ny)
    (hj : JobPlaced R mbb scale dim ⟨nx * L.dimX, ny * L.dimY, L.dimZ⟩ files) {m : Mesh F64} (hm : m ∈ files)
    {zi : Int} (h0 : 0 ≤ zi) (h1 : zi < L.dimZ) {tx ty : Int} (htx : 0 ≤ tx ∧ tx < nx) (hty : 0 ≤ ty ∧ ty < ny) (y x : Int) :
    Filled (tileModel L mbb ⟨tx, ty, 0⟩) m zi y x ↔
      Filled (gridPart mbb scale dim ⟨L.dimX, L.dimY, L.dimZ⟩ ⟨tx * L.dimX, ty * L.dimY, 0⟩) (exactMesh m) zi y x := by
  have px : 0 < L.dimX := pos_of_mul_pos_right hj.nx.1 hn.1.le
  have py : 0 < L.dimY := pos_of_mul_pos_right hj.ny.1 hn.2.le
  have pz : 0 < L.dimZ := hj.nz.1
  have bx := hj.nx.2
  have by' := hj.ny.2
  have bz := hj.nz.2
  dsimp only at bx by' bz
  obtain ⟨x0, x1⟩ := mul_room htx.1 htx.2 px
  obtain ⟨y0, y1⟩ := mul_room hty.1 hty.2 py
  have V0 : 0 < (dim : ℚ) / scale.val := div_pos (by exact_mod_cast hj.voxels.1) hj.size
  have hg := hj.general m hm
  have lo := hg.lo
  have hi := hg.hi
  have v1 := gridPart_vpmm (mbb := mbb) (n := ⟨nx * L.dimX, ny * L.dimY, L.dimZ⟩) (o := ⟨0, 0, 0⟩) V0 hj.nx.1
  rw [v1] at lo hi
  have part : ∀ {c : ℚ} {k l : Int}, k ≤ l → |c| + (l : ℚ) / (dim / scale.val) ≤ R → |c| + (k : ℚ) / (dim / scale.val) ≤ R := by
    intro c k l hkl hR
    have : (k : ℚ) / (dim / scale.val) ≤ (l : ℚ) / (dim / scale.val) :=
      div_le_div_of_nonneg_right (by exact_mod_cast hkl) V0.le
    linarith
  have nT := tile_near (t := ⟨tx, ty, 0⟩) h (by rw [abs_of_pos hj.voxels.1]; have := hj.voxels.2; omega) lo hi px
    (dimOf_le_of (e := 2 ^ 53) (by omega) (by omega) (by omega))
    ⟨⟨x0, by dsimp only; omega⟩, ⟨y0, by dsimp only; omega⟩, by simp⟩ (part (by dsimp only; omega) hj.x)
    (part (by dsimp only; omega) hj.y) (part (by dsimp only; omega) hj.z)
  dsimp only at nT
  rw [Int.zero_mul] at nT
  have gT : GeneralPosition R (gridPart mbb scale dim ⟨L.dimX, L.dimY, L.dimZ⟩ ⟨tx * L.dimX, ty * L.dimY, 0⟩) (exactMesh m) :=
    general_part V0 hj.nx.1 px ⟨x0, y0, le_refl _⟩ ⟨x1, y1, by dsimp only; omega⟩ ⟨py.le, pz.le⟩ hj.x hj.y hj.z hg
  exact filled_same nT gT h0 h1 y x

/-- Together the tiles of a placed job fill in float64 exactly what the undiced grid is filled with in exact arithmetic. -/
theorem tiles_filled_f64 {mbb : Box F64} {scale : F64} {dim nx ny : Int} {L : Layout F64} {R : ℚ} {files : List (Mesh F64)}
    (h : layout mbb scale dim nx ny 1 = .ok L) (hn : 0 < nx ∧ 0 < ny)
    (hj : JobPlaced R mbb scale dim ⟨nx * L.dimX, ny * L.dimY, L.dimZ⟩ files) {m : Mesh F64} (hm : m ∈ files)
    {zi : Int} (h0 : 0 ≤ zi) (h1 : zi < L.dimZ) (y x : Int) (hx : 0 ≤ x) :
    (∃ tx ty, 0 ≤ tx ∧ tx < nx ∧ 0 ≤ ty ∧ ty < ny ∧
      Filled (tileModel L mbb ⟨tx, ty, 0⟩) m zi (y - ty * L.dimY) (x - tx * L.dimX)) ↔
    Filled (gridPart mbb scale dim ⟨nx * L.dimX, ny * L.dimY, L.dimZ⟩ ⟨0, 0, 0⟩) (exactMesh m) zi y x := by
  have px : 0 < L.dimX := pos_of_mul_pos_right hj.nx.1 hn.1.le
  have py : 0 < L.dimY := pos_of_mul_pos_right hj.ny.1 hn.2.le
  have V0 : 0 < (dim : ℚ) / scale.val := div_pos (by exact_mod_cast hj.voxels.1) hj.size
  have key := fun tx ty => filled_sub _ _ _ _ _ (gridPart_sub (mbb := mbb) (n := ⟨nx * L.dimX, ny * L.dimY, L.dimZ⟩)
    (n' := ⟨L.dimX, L.dimY, L.dimZ⟩) (o := ⟨tx * L.dimX, ty * L.dimY, 0⟩) V0 hj.nx.1 px) (exactMesh m) zi
    (y - ty * L.dimY) (x - tx * L.dimX)
  have same := fun tx ty h1 h2 h3 h4 => tile_same h hn hj hm h0 (by assumption) (tx := tx) (ty := ty) ⟨h1, h2⟩ ⟨h3, h4⟩
    (y - ty * L.dimY) (x - tx * L.dimX)
  dsimp only at key
  have e1 : ∀ ty : Int, y - ty * L.dimY + ty * L.dimY = y := fun _ => by omega
  have e2 : ∀ tx : Int, x - tx * L.dimX + tx * L.dimX = x := fun _ => by omega
  have e3 : zi + 0 = zi := by omega
  simp only [e1, e2, e3] at key
  have ny' : (gridPart mbb scale dim ⟨nx * L.dimX, ny * L.dimY, L.dimZ⟩ ⟨0, 0, 0⟩).NY = ny * L.dimY := rfl
  have nx' : (gridPart mbb scale dim ⟨nx * L.dimX, ny * L.dimY, L.dimZ⟩ ⟨0, 0, 0⟩).NX = nx * L.dimX := rfl
  have nyt : ∀ o, (gridPart mbb scale dim ⟨L.dimX, L.dimY, L.dimZ⟩ o).NY = L.dimY := fun _ => rfl
  have nxt : ∀ o, (gridPart mbb scale dim ⟨L.dimX, L.dimY, L.dimZ⟩ o).NX = L.dimX := fun _ => rfl
  constructor
  · rintro ⟨tx, ty, g1, g2, g3, g4, hf⟩
    have hf := (same tx ty g1 g2 g3 g4).mp hf
    obtain ⟨r1, r2, r3⟩ := filled_row hf
    rw [nyt] at r3
    rw [nxt] at r1
    obtain ⟨b1, b2⟩ := mul_room g3 g4 py
    obtain ⟨b3, b4⟩ := mul_room g1 g2 px
    obtain ⟨_, hor⟩ := (key tx ty ⟨r2, by rw [nyt]; exact r3⟩ ⟨by omega, by rw [ny']; omega⟩).mp hf
    unfold Filled
    dsimp only
    refine ⟨by rw [nx']; omega, ?_⟩
    rcases hor with hor | ⟨_, h6, h7⟩
    · exact Or.inl hor
    · exact Or.inr ⟨hx, h6, h7⟩
  · intro hf
    obtain ⟨r1, r2, r3⟩ := filled_row hf
    rw [nx'] at r1
    rw [ny'] at r3
    obtain ⟨q1, q2⟩ := (axis_count L.dimX nx x px).mpr ⟨hx, r1⟩
    obtain ⟨q3, q4⟩ := (axis_count L.dimY ny y py).mpr ⟨r2, r3⟩
    obtain ⟨a1, a2⟩ := (axis_tile L.dimX x px _).mpr rfl
    obtain ⟨a3, a4⟩ := (axis_tile L.dimY y py _).mpr rfl
    rw [Int.add_mul, Int.one_mul] at a2 a4
    refine ⟨x / L.dimX, y / L.dimY, q1, q2, q3, q4, (same _ _ q1 q2 q3 q4).mpr
      ((key _ _ ⟨by omega, by rw [nyt]; omega⟩ ⟨r2, by rw [ny']; exact r3⟩).mpr ?_)⟩
    unfold Filled at hf
    dsimp only at hf
    refine ⟨by rw [nxt]; omega, ?_⟩
    rcases hf.2 with hor | ⟨_, h6, h7⟩
    · exact Or.inl hor
    · exact Or.inr ⟨by omega, h6, h7⟩

/-- **C102.** The image of a slice in float64, for files in general position to the grid of the job: the white pixels are exactly
    the cells of the slice that the undiced voxelization of the base fills in exact arithmetic and that of no cut does, mirrored in y
    and inside a border of one pixel, under every schedule. -/
theorem slice_image_f64 {mbb : Box F64} {scale : F64} {dim nx ny : Int} {L : Layout F64} {R : ℚ}
    (h : layout mbb scale dim nx ny 1 = .ok L) (hn : 0 < nx ∧ 0 < ny) {base : Mesh F64 × Box F64} {cuts : List (Mesh F64 × Box F64)}
    (hj : JobPlaced R mbb scale dim ⟨nx * L.dimX, ny * L.dimY, L.dimZ⟩ (base.1 :: cuts.map Prod.fst))
    {zi : Int} (h0 : 0 ≤ zi) (h1 : zi < L.dimZ) {res : Option Image}
    (hr : SliceRun dim zi (svxJobs L mbb nx ny 1 (base :: cuts)) res) :
    ∃ img, res = some img ∧
      Shows img (dim + 2) (dim + 2)
        (SliceSolid (gridPart mbb scale dim ⟨nx * L.dimX, ny * L.dimY, L.dimZ⟩ ⟨0, 0, 0⟩) (exactMesh base.1)
          (cuts.map fun c => exactMesh c.1) zi)
        (fun i j => (i - 1, dim - j)) := by
  have py : 0 < L.dimY := pos_of_mul_pos_right hj.ny.1 hn.2.le
  obtain ⟨img, e, hs⟩ := slice_image_any mbb scale dim nx ny L h py base cuts zi h0
    (fun m x y => Filled (gridPart mbb scale dim ⟨nx * L.dimX, ny * L.dimY, L.dimZ⟩ ⟨0, 0, 0⟩) (exactMesh m) zi y x)
    (fun m hm y x hx => tiles_filled_f64 h hn hj hm h0 h1 y x hx) res hr
  refine ⟨img, e, hs.1, hs.2.1, fun i j => ?_⟩
  rw [hs.2.2]
  unfold SliceSolid
  simp only [List.forall_mem_map]

/-! ## Archives -/

/-- The scale is at least each side of the box. -/
theorem boxScale_f64 (B : Box F64) : (sub B.Max.X B.Min.X : F64).val ≤ (boxScale B).val ∧
    (sub B.Max.Y B.Min.Y : F64).val ≤ (boxScale B).val ∧ (sub B.Max.Z B.Min.Z : F64).val ≤ (boxScale B).val := by
  unfold boxScale
  dsimp only
  generalize (sub B.Max.X B.Min.X : F64) = a
  generalize (sub B.Max.Y B.Min.Y : F64) = b
  generalize (sub B.Max.Z B.Min.Z : F64) = c
  have hlt : ∀ u v : F64, lt u v = true ↔ u.val < v.val := fun u v => by
    show decide (u.val < v.val) = true ↔ _
    rw [decide_eq_true_eq]
  simp only [hlt]
  split <;> split <;> refine ⟨?_, ?_, ?_⟩ <;> linarith

/-- The tiles of a placed job together have at most one voxel more than asked for along x and y. -/
theorem job_room {B : Box F64} {dim nx ny : Int} {L : Layout F64} {R : ℚ} {m : Mesh F64} {files : List (Mesh F64)}
    (h : layout B (boxScale B) dim nx ny 1 = .ok L) (hn : 0 < nx ∧ 0 < ny)
    (hj : JobPlaced R B (boxScale B) dim ⟨nx * L.dimX, ny * L.dimY, L.dimZ⟩ (m :: files)) :
    nx * L.dimX ≤ dim + 1 ∧ ny * L.dimY ≤ dim + 1 := by
  have px : 0 < L.dimX := pos_of_mul_pos_right hj.nx.1 hn.1.le
  have py : 0 < L.dimY := pos_of_mul_pos_right hj.ny.1 hn.2.le
  have V0 : 0 < (dim : ℚ) / (boxScale B).val := div_pos (by exact_mod_cast hj.voxels.1) hj.size
  have lo := (hj.general m List.mem_cons_self).lo
  rw [gridPart_vpmm V0 hj.nx.1] at lo
  have wb := widest_bound hj.voxels.1 hj.voxels.2 hj.size
    ((zpow_le_zpow_right₀ (by norm_num) (by norm_num)).trans lo)
  obtain ⟨_, _, _, _, _, _, ev, -, ex, ey, -, fx, fy, -, -⟩ := layout_ok h
  obtain ⟨sx, sy, -⟩ := boxScale_f64 B
  have v0 : 0 ≤ (div (ofInt dim) (boxScale B) : F64).val := by
    show 0 ≤ rnd ((ofInt dim : F64).val / (boxScale B).val)
    rw [val_int (by rw [abs_of_pos hj.voxels.1]; have := hj.voxels.2; omega)]
    exact rnd_nonneg V0.le
  have axis : ∀ {lo hi : F64} {M n d : Int}, (sub hi lo : F64).val ≤ (boxScale B).val → M = voxelsAlong lo hi L.vpmm → 0 < n → 0 < d →
      d = M.tdiv n → n * d ≤ dim + 1 := by
    intro lo hi M n d hs eM hn hd e
    have : M ≤ dim + 1 := by
      have hM : M ≤ toInt (ceil (mul (boxScale B) (div (ofInt dim) (boxScale B)))) := by
        rw [eM, ev]
        unfold voxelsAlong
        rw [ceil_f64, ceil_f64]
        refine Int.ceil_le_ceil ?_
        exact rnd_mono (mul_le_mul_of_nonneg_right hs v0)
      omega
    have M0 : 0 ≤ M := by
      by_contra hc
      have := Int.tdiv_nonneg (a := -M) (b := n) (by omega) hn.le
      rw [Int.neg_tdiv] at this
      omega
    rw [Int.tdiv_eq_ediv_of_nonneg M0] at e
    have : n * (M / n) ≤ M := Int.mul_ediv_self_le hn.ne'
    rw [e]
    omega
  exact ⟨axis sx ex hn.1 px fx, axis sy ey hn.2 py fy⟩

/-- What the archive of a placed job stands for. -/
def Spec.PlacedSolid (B : Box F64) (dim nx ny : Int) (L : Layout F64) (base : Mesh F64) (cuts : List (Mesh F64)) (z : Nat) (x y : Int) : Prop :=
  SliceSolid (gridPart B (boxScale B) dim ⟨nx * L.dimX, ny * L.dimY, L.dimZ⟩ ⟨0, 0, 0⟩) (exactMesh base) (cuts.map exactMesh) z x y

theorem placed_in {B : Box F64} {dim nx ny : Int} {L : Layout F64} {R : ℚ} {base : Mesh F64} {cuts : List (Mesh F64)}
    (h : layout B (boxScale B) dim nx ny 1 = .ok L) (hn : 0 < nx ∧ 0 < ny)
    (hj : JobPlaced R B (boxScale B) dim ⟨nx * L.dimX, ny * L.dimY, L.dimZ⟩ (base :: cuts)) (z : Nat) (x y : Int)
    (hs : PlacedSolid B dim nx ny L base cuts z x y) : 0 ≤ x ∧ x ≤ dim ∧ 0 ≤ y ∧ y ≤ dim := by
  obtain ⟨x0, hfill, _⟩ := hs
  obtain ⟨f1, f2, f3⟩ := filled_row hfill
  have f1' : x < nx * L.dimX := f1
  have f3' : y < ny * L.dimY := f3
  obtain ⟨r1, r2⟩ := job_room h hn hj
  exact ⟨x0, by omega, f2, by omega⟩

section
open Net StlDice.Flag Cmd
variable {lib : Lib F64} {codec : Codec F64} {unzip : Bytes → Option (List (ZFile F64))} {unpng : Bytes → Option Pic}

/-- **C102.** What an agent returns in float64, for a request whose files are in general position. -/
theorem agent_shows_f64 {q : Request F64} {base : List (Tri (Vec F64))} {cuts : List (List (Tri (Vec F64)))} {L : Layout F64} {R : ℚ}
    (hf : q.StlFiles = base :: cuts) (hnz : q.NZ = 1) (hn : 0 < q.NX ∧ 0 < q.NY)
    (hL : layout (lib.bbox base) (boxScale (lib.bbox base)) q.Dim q.NX q.NY 1 = .ok L)
    (hj : JobPlaced R (lib.bbox base) (boxScale (lib.bbox base)) q.Dim ⟨q.NX * L.dimX, q.NY * L.dimY, L.dimZ⟩
      (lib.mesh base :: cuts.map lib.mesh)) {z : Nat} (hz : z < L.dimZ.toNat) {img : Image} (h : Agent lib q z (some img)) :
    Shows img (q.Dim + 2) (q.Dim + 2) (PlacedSolid (lib.bbox base) q.Dim q.NX q.NY L (lib.mesh base) (cuts.map lib.mesh) z)
      (fun i j => (i - 1, q.Dim - j)) := by
  unfold Agent at h
  rw [hf, hnz, List.map_cons] at h
  unfold AgentSliceRun at h
  dsimp only at h
  rcases h with ⟨L', hL', -, h⟩ | ⟨_, e⟩
  · rw [hL] at hL'
    injection hL' with e
    subst e
    obtain ⟨img', e, hs⟩ := slice_image_f64 hL hn (base := (lib.mesh base, lib.bbox base)) (by
      rw [List.map_map]; exact hj) (zi := (z : Int)) (by omega) (by omega) h
    injection e with e
    subst e
    unfold PlacedSolid
    rw [List.map_map] at hs ⊢
    exact hs
  · cases e

/-- **C102.** The file of a network job in float64, with one layer along z and files in general position: svx2stl reads from it exactly the
    voxels of the first file without the others that exact arithmetic would store, one voxel away and mirrored along y; with 9999
    slices or more svx2stl refuses it. -/
theorem network_svx2stl_f64 (hfa : Faithful codec unzip unpng) {d d' : Disk} {args : List Bytes} {fl : ClientFlags}
    (hfl : clientFlags args = some fl)
    (h : ClientProc lib (fun _ q r => Answers lib codec AllWell q r) d args d' .done)
    (hpre : fl.pre = ascii "out") (hnz : fl.nz = 1) (hn : 0 < fl.nx ∧ 0 < fl.ny) :
    ∃ names base cuts L, Pieces 44 fl.stl names ∧ FilesHold lib.load d names (base :: cuts) ∧
      layout (lib.bbox base) (boxScale (lib.bbox base)) fl.dim fl.nx fl.ny 1 = .ok L ∧
      ((∃ R, JobPlaced R (lib.bbox base) (boxScale (lib.bbox base)) fl.dim ⟨fl.nx * L.dimX, fl.ny * L.dimY, L.dimZ⟩
          (lib.mesh base :: cuts.map lib.mesh)) →
        (L.dimZ ≤ 9998 → ∃ b, svxOpen unzip d' (outName (ascii "out") fl.dim fl.nx fl.ny 1) = .ok b ∧
          ∀ k : Key, Present b k ↔ ∃ (z : Nat) (x y : Int), z < L.dimZ.toNat ∧
            PlacedSolid (lib.bbox base) fl.dim fl.nx fl.ny L (lib.mesh base) (cuts.map lib.mesh) z x y ∧
            k = ⟨x + 1, fl.dim - y, z + 1⟩) ∧
        (9999 ≤ L.dimZ → svxOpen unzip d' (outName (ascii "out") fl.dim fl.nx fl.ny 1) = .err)) := by
  rcases client_done h with ⟨hp, _⟩ | ⟨fl', names, files, svx, h1, h2, h3, h4, h5, h6⟩
  · unfold clientFlags at hfl
    rw [hp] at hfl
    cases hfl
  rw [hfl] at h1
  injection h1 with h1
  subst h1
  obtain ⟨r, present, img, rest, hr, hsvx, hperm, himg, hall⟩ := answer_exact (fun s l h => h.1) h5
  obtain ⟨base, cuts, hf, hne, hL, er⟩ := newJob_ok_iff.mp hr
  dsimp only at hf hL er hsvx hperm
  subst hf
  rw [hnz] at hL er hsvx hperm
  have hall := hall (fun s l h => h)
  refine ⟨names, base, cuts, r.L, h3, h4, hL, ?_⟩
  rintro ⟨R, hj⟩
  have pz : 0 < r.L.dimZ := hj.nz.1
  rw [hnz, hpre] at h6
  have hfile : d' (outName (ascii "out") fl.dim fl.nx fl.ny 1) = some svx := by
    rw [h6]
    exact put_self _ _ _
  have hfilt : (List.range r.L.dimZ.toNat).filter present = List.range r.L.dimZ.toNat := by
    rw [List.filter_eq_self]
    intro z hz
    exact hall z (List.mem_range.mp hz)
  rw [hfilt] at hperm
  have hro : r.OutPrefix = ascii "out" := by rw [er]; exact hpre
  have d1 : r.Dim = fl.dim := by rw [er]
  have d2 : r.NX = fl.nx := by rw [er]
  have d3 : r.NY = fl.ny := by rw [er]
  have d4 : r.NZ = 1 := by rw [er]
  have := archive_read hfa hfile hro pz hsvx (img := img)
    (solid := PlacedSolid (lib.bbox base) fl.dim fl.nx fl.ny r.L (lib.mesh base) (cuts.map lib.mesh))
    (by rw [d1, d2, d3, d4]; exact (hperm.cons _).cons _) (by
      rw [d1]
      exact fun z hz => agent_shows_f64 (q := ⟨fl.dim, fl.nx, fl.ny, fl.nz, fl.pre, base :: cuts⟩) rfl hnz hn hL hj hz
        (himg z hz (hall z hz)))
    (by rw [d1]; exact placed_in hL hn hj)
  rw [d1] at this
  exact this

end

section
open Net StlDice.Flag Cmd Local
variable {lib : Lib F64} {codec : Codec F64} {d d' : Disk} {args : List Bytes} {fl : LocalFlags} {evs : List ZEv}
  {unzip : Bytes → Option (List (ZFile F64))} {unpng : Bytes → Option Pic}

/-- **C102.** The images of stl2svx in float64. -/
theorem local_shows_f64 (hnz : fl.nz = 1) (hn : 0 < fl.nx ∧ 0 < fl.ny) {base : List (Tri (Vec F64))}
    {cuts : List (List (Tri (Vec F64)))} {L : Layout F64} {R : ℚ}
    (hL : layout (lib.bbox base) (boxScale (lib.bbox base)) fl.dim fl.nx fl.ny 1 = .ok L)
    (hj : JobPlaced R (lib.bbox base) (boxScale (lib.bbox base)) fl.dim ⟨fl.nx * L.dimX, fl.ny * L.dimY, L.dimZ⟩
      (lib.mesh base :: cuts.map lib.mesh))
    (hout : zipName fl.dim ∉ split 44 fl.stl) (hl : loadSTL lib d (split 44 fl.stl) = some (base :: cuts)) {z : Nat}
    (hz : z < L.dimZ.toNat) {img : Image} (h : LocalSlice lib d fl z (some img)) :
    Shows img (fl.dim + 2) (fl.dim + 2) (PlacedSolid (lib.bbox base) fl.dim fl.nx fl.ny L (lib.mesh base) (cuts.map lib.mesh) z)
      (fun i j => (i - 1, fl.dim - j)) := by
  have h := (localSlice_exact hout hl (by rw [hnz]; exact hL)).mp h
  rw [hnz] at h
  obtain ⟨img', e, hs⟩ := slice_image_f64 hL hn (base := (lib.mesh base, lib.bbox base)) (by
    rw [List.map_map]; exact hj) (zi := (z : Int)) (by omega) (by omega) h
  injection e with e
  subst e
  unfold PlacedSolid
  rw [List.map_map] at hs ⊢
  exact hs

/-- **C102.** The same for stl2svx on one machine, if the manifest was written first. -/
theorem local_svx2stl_f64 (hfa : Faithful codec unzip unpng) {names : List Bytes} {base : List (Tri (Vec F64))}
    {cuts : List (List (Tri (Vec F64)))} {L : Layout F64} {R : ℚ} (hp : Pieces 44 fl.stl names)
    (hf : FilesHold lib.load d names (base :: cuts)) (hout : zipName fl.dim ∉ names)
    (hnz : fl.nz = 1) (hn : 0 < fl.nx ∧ 0 < fl.ny)
    (hL : layout (lib.bbox base) (boxScale (lib.bbox base)) fl.dim fl.nx fl.ny 1 = .ok L)
    (hj : JobPlaced R (lib.bbox base) (boxScale (lib.bbox base)) fl.dim ⟨fl.nx * L.dimX, fl.ny * L.dimY, L.dimZ⟩
      (lib.mesh base :: cuts.map lib.mesh))
    (h : LocalDone lib codec d fl ⟨fl.dim, fl.nx, fl.ny, fl.nz, ascii "out", L, lib.bbox base⟩ evs true d')
    (hord : ManifestFirst (F := F64) ⟨fl.dim, fl.nx, fl.ny, fl.nz, ascii "out", L, lib.bbox base⟩ evs) :
    (L.dimZ ≤ 9998 → ∃ b, svxOpen unzip d' (zipName fl.dim) = .ok b ∧
      ∀ k : Key, Present b k ↔ ∃ (z : Nat) (x y : Int), z < L.dimZ.toNat ∧
        PlacedSolid (lib.bbox base) fl.dim fl.nx fl.ny L (lib.mesh base) (cuts.map lib.mesh) z x y ∧
        k = ⟨x + 1, fl.dim - y, z + 1⟩) ∧
    (9999 ≤ L.dimZ → svxOpen unzip d' (zipName fl.dim) = .err) := by
  obtain ⟨img, hi, hd'⟩ := local_archive h hord
  have es : split 44 fl.stl = names := (split_iff _ _ _).mpr hp
  subst hd'
  refine archive_read hfa (put_self _ _ _) (r := ⟨fl.dim, fl.nx, fl.ny, fl.nz, ascii "out", L, lib.bbox base⟩) (img := img)
      (solid := PlacedSolid (lib.bbox base) fl.dim fl.nx fl.ny L (lib.mesh base) (cuts.map lib.mesh)) rfl hj.nz.1 rfl ?_ ?_ ?_
  · exact List.Perm.cons _ (List.perm_append_singleton _ _)
  · intro z hz
    exact local_shows_f64 hnz hn hL hj (by rw [es]; exact hout) (by rw [es]; exact loadSTL_iff.mpr hf) hz (hi z hz)
  · exact placed_in hL hn hj

/-- **C102.** The same job on the network and on one machine, in float64: the two archives have the same entries, up to their order. -/
theorem local_is_network_f64 {q : Request F64} {svx : Bytes} {names : List Bytes} {base : List (Tri (Vec F64))}
    {cuts : List (List (Tri (Vec F64)))} {L : Layout F64} {R : ℚ} (hp : Pieces 44 fl.stl names)
    (hf : FilesHold lib.load d names (base :: cuts)) (hout : zipName fl.dim ∉ names)
    (hnz : fl.nz = 1) (hn : 0 < fl.nx ∧ 0 < fl.ny)
    (hL : layout (lib.bbox base) (boxScale (lib.bbox base)) fl.dim fl.nx fl.ny 1 = .ok L)
    (hj : JobPlaced R (lib.bbox base) (boxScale (lib.bbox base)) fl.dim ⟨fl.nx * L.dimX, fl.ny * L.dimY, L.dimZ⟩
      (lib.mesh base :: cuts.map lib.mesh))
    (h : LocalDone lib codec d fl ⟨fl.dim, fl.nx, fl.ny, fl.nz, ascii "out", L, lib.bbox base⟩ evs true d')
    (hord : ManifestFirst (F := F64) ⟨fl.dim, fl.nx, fl.ny, fl.nz, ascii "out", L, lib.bbox base⟩ evs)
    (hq : q = ⟨fl.dim, fl.nx, fl.ny, fl.nz, ascii "out", base :: cuts⟩) (hsvx : Answers lib codec AllWell q (some svx)) :
    ∃ es es', d' (zipName fl.dim) = some (codec.zip es) ∧ svx = codec.zip es' ∧ es.Perm es' := by
  obtain ⟨img, hi, hd'⟩ := local_archive h hord
  have es : split 44 fl.stl = names := (split_iff _ _ _).mpr hp
  obtain ⟨r, present, img', rest, hr, e, hperm, himg, hall⟩ := answer_exact (P := AllWell) (fun s l h => h.1) hsvx
  obtain ⟨base', cuts', hf', hne, hL', er⟩ := newJob_ok_iff.mp hr
  rw [hq] at hf' hL' er e hperm
  dsimp only at hf' hL' er e hperm
  injection hf' with e1 e2
  subst e1 e2
  rw [hnz] at hL' e hperm
  rw [hL] at hL'
  injection hL' with hL'
  have hall := hall (fun s l h => h)
  rw [← hL'] at er e hperm himg hall
  refine ⟨_, _, by rw [hd']; exact put_self _ _ _, e, ?_⟩
  have hfilt : (List.range L.dimZ.toNat).filter present = List.range L.dimZ.toNat := by
    rw [List.filter_eq_self]
    intro z hz
    exact hall z (List.mem_range.mp hz)
  rw [hfilt] at hperm
  dsimp only
  rw [er, hnz]
  rw [List.cons_append, List.cons_append]
  refine List.Perm.cons _ (List.Perm.cons _ ((List.perm_append_singleton _ _).trans (List.Perm.cons _ (List.Perm.trans ?_ hperm.symm))))
  have : (List.range L.dimZ.toNat).map (fun z : Nat => (sliceName fl.dim fl.nx fl.ny 1 (z + 1), (Content.raw (codec.png (img z)) : Content F64))) =
      (List.range L.dimZ.toNat).map (fun z : Nat => (sliceName fl.dim fl.nx fl.ny 1 (z + 1), Content.raw (codec.png (img' z)))) := by
    apply List.map_congr_left
    intro z hz
    have hz := List.mem_range.mp hz
    have h1 := local_shows_f64 hnz hn hL hj (by rw [es]; exact hout) (by rw [es]; exact loadSTL_iff.mpr hf) hz (hi z hz)
    have h2 := agent_shows_f64 (q := ⟨fl.dim, fl.nx, fl.ny, fl.nz, ascii "out", base :: cuts⟩) rfl hnz hn hL hj hz
      (by rw [← hq]; exact himg z hz (hall z hz))
    rw [shows_unique h1 h2]
  rw [this]

end

/-! ## A run: the tetrahedron of `tetra_general` without the cells of one of its faces, in two tiles -/

section
open Net StlDice.Flag Cmd Local

/-- The faces of the tetrahedron. -/
def tetraFaces : List (Tri (Vec F64)) := tetra.Triangles.map fun i =>
  ⟨(tetra.heap i).V1.Position, (tetra.heap i).V2.Position, (tetra.heap i).V3.Position⟩

/-- The files `a.stl` (the tetrahedron) and `b.stl` (its second face). -/
def floatLib : Lib F64 where
  load := fun c => some (if c = [] then tetraFaces else [tetraFaces.getD 1 ⟨unitBox.Min, unitBox.Min, unitBox.Min⟩])
  normal := fun t => if t.V1.Z.val = 5 / 32 then ⟨ofInt (-1), ofInt 0, ofInt 0⟩ else
    if t.V2.Z.val = 5 / 32 ∧ t.V3.Z.val ≠ 15 / 16 then ⟨ofInt 0, ofInt 0, ofInt (-1)⟩ else ⟨ofInt 1, ofInt 0, ofInt 0⟩
  bbox := fun _ => unitBox

def floatFace : List (Tri (Vec F64)) := [tetraFaces.getD 1 ⟨unitBox.Min, unitBox.Min, unitBox.Min⟩]

theorem float_mesh : ∀ p ∈ tetra.Triangles, (floatLib.mesh tetraFaces).heap p = tetra.heap p := by
  have : ∀ p ∈ tetra.Triangles, floatLib.normal ⟨(tetra.heap p).V1.Position, (tetra.heap p).V2.Position, (tetra.heap p).V3.Position⟩ =
      (tetra.heap p).V1.Normal ∧ (tetra.heap p).V2.Normal = (tetra.heap p).V1.Normal ∧ (tetra.heap p).V3.Normal = (tetra.heap p).V1.Normal := by
    decide +kernel
  intro p hp
  obtain ⟨h1, h2, h3⟩ := this p hp
  have e : tetraFaces.getD p ⟨floatLib.bbox [] |>.Min, floatLib.bbox [] |>.Min, floatLib.bbox [] |>.Min⟩ =
      ⟨(tetra.heap p).V1.Position, (tetra.heap p).V2.Position, (tetra.heap p).V3.Position⟩ := by
    have hp' : p = 0 ∨ p = 1 ∨ p = 2 ∨ p = 3 := by
      simpa [tetra] using hp
    rcases hp' with rfl | rfl | rfl | rfl <;> rfl
  show floatLib.triangle (tetraFaces.getD p _) = _
  rw [e]
  unfold Lib.triangle
  dsimp only
  rw [h1]
  conv_rhs => rw [show tetra.heap p = ⟨⟨(tetra.heap p).V1.Position, (tetra.heap p).V1.Normal⟩, ⟨(tetra.heap p).V2.Position, (tetra.heap p).V2.Normal⟩,
    ⟨(tetra.heap p).V3.Position, (tetra.heap p).V3.Normal⟩⟩ from rfl, h2, h3]

theorem general_mono {R : ℚ} {b : BinVOX ℚ} {m m' : Mesh ℚ} (hg : GeneralPosition R b m)
    (h : ∀ p ∈ m'.Triangles, ∃ q ∈ m.Triangles, m'.heap p = m.heap q) : GeneralPosition R b m' where
  lo := hg.lo
  hi := hg.hi
  nz := hg.nz
  corner := hg.corner
  top := hg.top
  points := fun p hp => by
    obtain ⟨q, hq, e⟩ := h p hp
    rw [e]; exact hg.points q hq
  edges := fun p hp => by
    obtain ⟨q, hq, e⟩ := h p hp
    rw [e]; exact hg.edges q hq
  normals := fun p hp => by
    obtain ⟨q, hq, e⟩ := h p hp
    rw [e]; exact hg.normals q hq

theorem exactMesh_heap {m m' : Mesh F64} {p q : Nat} (h : m.heap p = m'.heap q) : (exactMesh m).heap p = (exactMesh m').heap q := by
  unfold exactMesh
  dsimp only
  rw [h]

def floatLayout : Layout F64 := match layout unitBox (boxScale unitBox) 4 2 1 1 with
  | .ok L => L
  | _ => ⟨ofInt 0, ofInt 0, 0, 0, 0, 0, 0, 0, ofInt 0⟩

theorem float_layout (ts : List (Tri (Vec F64))) :
    layout (floatLib.bbox ts) (boxScale (floatLib.bbox ts)) 4 2 1 1 = .ok floatLayout := by
  show layout unitBox (boxScale unitBox) 4 2 1 1 = .ok floatLayout
  decide +kernel

theorem float_placed : JobPlaced 3 (floatLib.bbox tetraFaces) (boxScale (floatLib.bbox tetraFaces)) 4
    ⟨2 * floatLayout.dimX, 1 * floatLayout.dimY, floatLayout.dimZ⟩ (floatLib.mesh tetraFaces :: [floatFace].map floatLib.mesh) := by
  have e : (⟨2 * floatLayout.dimX, 1 * floatLayout.dimY, floatLayout.dimZ⟩ : Key) = ⟨4, 4, 4⟩ := by decide +kernel
  have es : boxScale (floatLib.bbox tetraFaces) = ofInt 1 := by
    show boxScale unitBox = ofInt 1
    decide +kernel
  rw [e, es]
  refine ⟨by decide +kernel, by decide, by decide, by decide, by decide, by decide +kernel, by decide +kernel, by decide +kernel, ?_⟩
  intro m hm
  rcases List.mem_cons.mp hm with rfl | hm
  · exact general_mono tetra_general fun p hp => ⟨p, hp, exactMesh_heap (float_mesh p hp)⟩
  · rw [List.map_cons, List.map_nil, List.mem_singleton] at hm
    subst hm
    refine general_mono tetra_general fun p hp => ⟨1, by decide, ?_⟩
    have : p = 0 := by
      have : p ∈ List.range 1 := hp
      simpa using this
    subst this
    exact exactMesh_heap (float_mesh 1 (by decide))

def floatDisk : Disk := put (put (fun _ => none) (ascii "a.stl") []) (ascii "b.stl") [1]

def floatArgs : List Bytes := [ascii "-dim", ascii "4", ascii "-nx", ascii "2", ascii "-ny", ascii "1", ascii "-stl", ascii "a.stl,b.stl"]

theorem float_flags : clientFlags floatArgs = some ⟨4, 2, 1, 1, ascii "a.stl,b.stl", ascii "out", []⟩ := by
  unfold clientFlags
  have : Flag.parse clientKind (fun _ => false) floatArgs = .ok [(ascii "dim", ascii "4"), (ascii "nx", ascii "2"), (ascii "ny", ascii "1"),
      (ascii "stl", ascii "a.stl,b.stl")] [] := by rfl
  rw [this]
  rfl

def floatLocal : LocalFlags := ⟨4, 2, 1, 1, ascii "a.stl,b.stl", []⟩

theorem float_local : localFlags floatArgs = some floatLocal := by
  unfold localFlags
  have : Flag.parse localKind (fun _ => false) floatArgs = .ok [(ascii "dim", ascii "4"), (ascii "nx", ascii "2"), (ascii "ny", ascii "1"),
    (ascii "stl", ascii "a.stl,b.stl")] [] := by rfl
  rw [this]
  rfl

theorem float_split : Pieces 44 (ascii "a.stl,b.stl") [ascii "a.stl", ascii "b.stl"] := (split_iff _ _ _).mp (by decide)

theorem float_files : FilesHold floatLib.load floatDisk [ascii "a.stl", ascii "b.stl"] [tetraFaces, floatFace] :=
  .cons ⟨[], by decide, rfl⟩ (.cons ⟨[1], by decide, rfl⟩ .nil)

theorem float_answer (codec : Codec F64) : ∃ svx, Answers floatLib codec AllWell ⟨4, 2, 1, 1, ascii "out", [tetraFaces, floatFace]⟩ (some svx) :=
  network_possible rfl (List.cons_ne_nil _ _) rfl (fun f _ => ⟨_, float_layout f⟩)

instance : Countable F64 := ⟨⟨fun x => Encodable.encode x.val, fun a b h => by
  have : a.val = b.val := Encodable.encode_injective h
  cases a; cases b; cases this; rfl⟩⟩

/-- What svx2stl reads from the archive the client gets. -/
example : ∃ (codec : Codec F64) (unzip : Bytes → Option (List (ZFile F64))) (d' : Disk) (b : BinVOX F64),
    ClientProc floatLib (fun _ q r => Answers floatLib codec AllWell q r) floatDisk floatArgs d' .done ∧
    svxOpen unzip d' (outName (ascii "out") 4 2 1 1) = .ok b ∧
    ∀ k : Key, Present b k ↔ ∃ (z : Nat) (x y : Int), z < 4 ∧
      PlacedSolid unitBox 4 2 1 floatLayout (floatLib.mesh tetraFaces) [floatLib.mesh floatFace] z x y ∧
      k = ⟨x + 1, 4 - y, z + 1⟩ := by
  obtain ⟨codec, unzip, unpng, hfa⟩ := faithful_exists (F := F64)
  obtain ⟨svx, hsvx⟩ := float_answer codec
  have hc : ClientProc floatLib (fun _ q r => Answers floatLib codec AllWell q r) floatDisk floatArgs
      (put floatDisk (outName (ascii "out") 4 2 1 1) svx) .done :=
    ClientProc.saved (files := [tetraFaces, floatFace]) (ok := true) float_flags (by show ascii "a.stl,b.stl" ≠ []; decide)
      (by rw [(split_iff _ _ _).mpr float_split]; exact loadSTL_iff.mpr float_files) hsvx .ok
  obtain ⟨names, base, cuts, L, hp, hf, hL, himp⟩ := network_svx2stl_f64 hfa float_flags hc rfl rfl (by decide)
  have hn : names = [ascii "a.stl", ascii "b.stl"] := by rw [← (split_iff _ _ _).mpr hp, (split_iff _ _ _).mpr float_split]
  subst hn
  have he : [tetraFaces, floatFace] = base :: cuts := by
    have h1 := loadSTL_iff.mpr hf
    rw [loadSTL_iff.mpr float_files] at h1
    exact Option.some.inj h1
  injection he with e1 e2
  subst e1 e2
  have eL : floatLayout = L := by
    have := (float_layout tetraFaces).symm.trans hL
    injection this
  subst eL
  obtain ⟨b, hb, hk⟩ := (himp ⟨3, float_placed⟩).1 (by decide +kernel)
  refine ⟨codec, unzip, _, b, hc, hb, ?_⟩
  have ez : floatLayout.dimZ.toNat = 4 := by decide +kernel
  rw [ez] at hk
  exact hk

/-- The same on one machine, and the two archives compared. -/
example : ∃ (codec : Codec F64) (unzip : Bytes → Option (List (ZFile F64))) (d' : Disk) (b : BinVOX F64) (svx : Bytes)
    (es es' : List (Bytes × Content F64)),
    LocalProc floatLib codec floatDisk floatArgs d' .done ∧ svxOpen unzip d' (ascii "out4.svx") = .ok b ∧
    (∀ k : Key, Present b k ↔ ∃ (z : Nat) (x y : Int), z < floatLayout.dimZ.toNat ∧
      PlacedSolid unitBox 4 2 1 floatLayout (floatLib.mesh tetraFaces) [floatLib.mesh floatFace] z x y ∧
      k = ⟨x + 1, 4 - y, z + 1⟩) ∧
    Answers floatLib codec AllWell ⟨4, 2, 1, 1, ascii "out", [tetraFaces, floatFace]⟩ (some svx) ∧
    d' (ascii "out4.svx") = some (codec.zip es) ∧ svx = codec.zip es' ∧ es.Perm es' := by
  obtain ⟨codec, unzip, unpng, hfa⟩ := faithful_exists (F := F64)
  obtain ⟨svx, hsvx⟩ := float_answer codec
  obtain ⟨evs, d', h1, h2, h3⟩ := local_possible (lib := floatLib) (codec := codec) (d := floatDisk) (base := tetraFaces) (cuts := [floatFace])
    (names := [ascii "a.stl", ascii "b.stl"]) float_local rfl (by decide) float_split float_files (by decide) rfl (float_layout _)
  obtain ⟨b, hb, hk⟩ := (local_svx2stl_f64 hfa float_split float_files (by decide) rfl (by decide) (float_layout _) float_placed h2 h3).1
    (by decide +kernel)
  obtain ⟨es, es', k1, k2, k3⟩ := local_is_network_f64 (fl := floatLocal) float_split float_files (by decide) rfl (by decide) (float_layout _)
    float_placed h2 h3 rfl hsvx
  exact ⟨codec, unzip, d', b, svx, es, es', h1, hb, hk, hsvx, k1, k2, k3⟩

/-- Something is solid: a cell inside the tetrahedron; but not a cell its second face goes through. -/
example : PlacedSolid unitBox 4 2 1 floatLayout (floatLib.mesh tetraFaces) [floatLib.mesh floatFace] 1 1 1 ∧
    ¬ PlacedSolid unitBox 4 2 1 floatLayout (floatLib.mesh tetraFaces) [floatLib.mesh floatFace] 1 2 1 := by
  let G := gridPart unitBox (boxScale unitBox) 4 ⟨2 * floatLayout.dimX, 1 * floatLayout.dimY, floatLayout.dimZ⟩ ⟨0, 0, 0⟩
  have a : ∃ r ∈ sliceRows G (exactMesh (floatLib.mesh tetraFaces)) 1, (⟨1, 1, 1⟩ : Key) ∈ r := by decide +kernel
  have b : ¬ ∃ r ∈ sliceRows G (exactMesh (floatLib.mesh floatFace)) 1, (⟨1, 1, 1⟩ : Key) ∈ r := by decide +kernel
  have c : ∃ r ∈ sliceRows G (exactMesh (floatLib.mesh floatFace)) 1, (⟨2, 1, 1⟩ : Key) ∈ r := by decide +kernel
  rw [sliceRows_mem] at a b c
  unfold PlacedSolid SliceSolid
  refine ⟨⟨by decide, a.2, ?_⟩, ?_⟩
  · intro m hm
    rw [List.map_cons, List.map_nil, List.mem_singleton] at hm
    subst hm
    exact fun hf => b ⟨rfl, hf⟩
  · rintro ⟨-, -, h⟩
    exact h _ List.mem_cons_self c.2

end

end StlDice
