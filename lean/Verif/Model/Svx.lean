import Verif.Model.Dice

/-! # Slice images: stl2svx/agent/agent.go, cmd/stl2svx/stl2svx.go, cmd/stldice-mr/stldice-mr.go -/

namespace StlDice
open GoFloat BinVOX

/-- `voxelInfo`, stl2svx/agent/agent.go:145-148. -/
structure VoxelInfo where
  X : Int
  Y : Int
  Base : Bool
deriving DecidableEq, Repr

/-- The collected pixels, stl2svx/agent/agent.go:196. -/
abbrev Pixels := GoMap (Int × Int) Bool

/-- One iteration of the receive loop for a voxel whose pixel is `k`,
    stl2svx/agent/agent.go:198-207 (the same text in cmd/stl2svx/stl2svx.go:298-304 and
    cmd/stldice-mr/stldice-mr.go:241-249). -/
def pixelStep (m : Pixels) (k : Int × Int) (base : Bool) : Pixels :=
  match m.get k with
  | some v => if v then m.set k base else m
  | none => m.set k base

/-- A black-and-white image: size and the white pixels. -/
structure Image where
  W : Int
  H : Int
  white : Int → Int → Bool

/-- `image.NewGray(image.Rect(0, 0, w, h))` painted black, stl2svx/agent/agent.go:213-216. -/
def Image.blank (w h : Int) : Image := ⟨w, h, fun _ _ => false⟩

/-- `img.Set(x, y, c)` (image library: a point outside the rectangle is ignored). -/
def Image.Set (img : Image) (x y : Int) (c : Bool) : Image :=
  if 0 ≤ x ∧ x < img.W ∧ 0 ≤ y ∧ y < img.H then
    { img with white := fun a b => if a = x ∧ b = y then c else img.white a b }
  else img

/-- The pixel of a voxel in the slice images of stl2svx: the y axis is mirrored,
    stl2svx/agent/agent.go:200, cmd/stl2svx/stl2svx.go:297. -/
def svxPixel (dim : Int) (v : VoxelInfo) : Int × Int := (v.X, dim - 1 - v.Y)

/-- The receive loop: the pixels collected from the voxels in order of arrival, when the voxel `v`
    has the pixel `px v`, stl2svx/agent/agent.go:196-208 and cmd/stldice-mr/stldice-mr.go:235-250. -/
def collectPixels (px : VoxelInfo → Int × Int) (vs : List VoxelInfo) : Pixels :=
  vs.foldl (fun m v => pixelStep m (px v) v.Base) []

/-- Painting the collected pixels in the order `ord` of the map iteration, `o` pixels from the
    corner, stl2svx/agent/agent.go:211-223 (`o = 1`) and cmd/stldice-mr/stldice-mr.go:252-262 (`o = 0`). -/
def paint (o : Int) (img : Image) (ord : List ((Int × Int) × Bool)) : Image :=
  ord.foldl (fun img e => img.Set (e.1.1 + o) (e.1.2 + o) e.2) img

/-- `imager`: the image may be `img` when the voxels arrive in the order `vs`
    (PNG encoding is not modelled). -/
def ImagerRun (dim : Int) (vs : List VoxelInfo) (img : Image) : Prop :=
  ∃ ord : List ((Int × Int) × Bool), ord.Perm (collectPixels (svxPixel dim) vs) ∧
    img = paint 1 (Image.blank (dim + 2) (dim + 2)) ord

/-- `bvInfo`, stl2svx/agent/agent.go:87-92. -/
structure BvInfo (F : Type) where
  dx : Int
  dy : Int
  dz : Int
  bv : BinVOX F
  base : Bool
  mesh : Mesh F

/-- The jobs for one file, stl2svx/agent/agent.go:114-138: all tiles of the base's layout. -/
def fileJobs {F : Type} [GoFloat F] (L : Layout F) (mbb : Box F) (nx ny nz : Int) (base : Bool)
    (mesh : Mesh F) : List (BvInfo F) :=
  (tileIndices nx ny nz).map fun t =>
    ⟨t.X * L.dimX, t.Y * L.dimY, t.Z * L.dimZ, tileModel L mbb t, base, mesh⟩

/-- `generateMR`, stl2svx/agent/agent.go:98-143: the jobs sent, if no file is fatal
    (see `AgentSliceRun`); `L` and `mbb` are those of the first file. -/
def svxJobs {F : Type} [GoFloat F] (L : Layout F) (mbb : Box F) (nx ny nz : Int) :
    List (Mesh F × Box F) → List (BvInfo F)
  | [] => []
  | base :: cuts =>
    fileJobs L mbb nx ny nz true base.1 ++ cuts.flatMap fun c => fileJobs L mbb nx ny nz false c.1

/-- `keyFunc`, stl2svx/agent/agent.go:165-176, over the keys in map order: `none` is the fatal exit. -/
def sendKeys {F : Type} (bvi : BvInfo F) (zi : Int) : List Key → Option (List VoxelInfo)
  | [] => some []
  | k :: ks =>
    let k' := k.shift bvi.dx bvi.dy bvi.dz
    if zi ≠ k'.Z then none
    else if k'.X < 0 ∨ k'.Y < 0 ∨ k'.Z < 0 then sendKeys bvi zi ks
    else (sendKeys bvi zi ks).map (⟨k'.X, k'.Y, bvi.base⟩ :: ·)

/-- `voxelize`, stl2svx/agent/agent.go:152-183, for some schedule and map order: the voxels sent
    (`none` = fatal exit); an error of `VoxelizeZ` is logged and nothing is sent. -/
def SendRun {F : Type} [GoFloat F] (zi : Int) (bvi : BvInfo F) (res : Option (List VoxelInfo)) : Prop :=
  ∃ out, VoxelizeZRun bvi.bv bvi.mesh zi out ∧
    match out with
    | .ok b' => ∃ ord : List Key, ord.Perm (b'.white.keys ++ b'.color.keys) ∧ res = sendKeys bvi zi ord
    | _ => res = some []

/-- The loop over the jobs, stl2svx/agent/agent.go:73-75: the voxels that reach the imager, in
    order (the channel keeps the order), or `none` if some job is fatal. -/
inductive SendAll {F : Type} [GoFloat F] (zi : Int) : List (BvInfo F) → Option (List VoxelInfo) → Prop
  | nil : SendAll zi [] (some [])
  | fatal {j js} (h : SendRun zi j none) : SendAll zi (j :: js) none
  | cons {j js vs r} (h : SendRun zi j (some vs)) (hr : SendAll zi js r) :
      SendAll zi (j :: js) (r.map (vs ++ ·))

/-- `SliceJob`, stl2svx/agent/agent.go:57-85 (and `agent`, cmd/stl2svx/stl2svx.go:107-129), for slice
    `zi`: the image, or `none` for the fatal exit. -/
def SliceRun {F : Type} [GoFloat F] (dim zi : Int) (jobs : List (BvInfo F)) (res : Option Image) : Prop :=
  ∃ r, SendAll zi jobs r ∧
    match r with
    | none => res = none
    | some vs => ∃ img, ImagerRun dim vs img ∧ res = some img

/-- `SliceJob` with the files of the request (mesh and bounding box, which fauxgl computes):
    `stl.New` is called for every file with the request's tile counts and is fatal if it fails,
    stl2svx/agent/agent.go:103-110. -/
def AgentSliceRun {F : Type} [GoFloat F] (dim nx ny nz zi : Int) (files : List (Mesh F × Box F))
    (res : Option Image) : Prop :=
  match files with
  | [] => SliceRun dim zi ([] : List (BvInfo F)) res
  | base :: cuts =>
    (∃ L, layout base.2 (boxScale base.2) dim nx ny nz = .ok L ∧
      (∀ c ∈ cuts, ∃ L', layout c.2 (boxScale c.2) dim nx ny nz = .ok L') ∧
      SliceRun dim zi (svxJobs L base.2 nx ny nz (base :: cuts)) res) ∨
    ((¬ ∀ f ∈ base :: cuts, ∃ L, layout f.2 (boxScale f.2) dim nx ny nz = .ok L) ∧ res = none)

/-! ## stldice-mr -/

/-- `keyFunc` of stldice-mr, cmd/stldice-mr/stldice-mr.go:209-215: the keys are emitted relative to
    the tile, without the tile offset. -/
def mrEmit (base : Bool) (ks : List Key) : List (Int × VoxelInfo) :=
  (ks.filter fun k => !(decide (k.X < 0) || decide (k.Y < 0) || decide (k.Z < 0))).map
    fun k => (k.Z, ⟨k.X, k.Y, base⟩)

/-- The voxels grouped for slice `z` in some order of arrival, cmd/stldice-mr/stldice-mr.go:63. -/
def mrGroup (z : Int) (es : List (Int × VoxelInfo)) : List VoxelInfo :=
  (es.filter fun e => e.1 = z).map Prod.snd

/-- One mapper call, cmd/stldice-mr/stldice-mr.go:178-223, for some schedule and map order (an error of
    `Voxelize` ends the mapper without output). -/
def MrEmitRun {F : Type} [GoFloat F] (j : BvInfo F) (es : List (Int × VoxelInfo)) : Prop :=
  ∃ out, VoxelizeRun j.bv j.mesh out ∧
    match out with
    | .ok b' => ∃ ord : List Key, ord.Perm (b'.white.keys ++ b'.color.keys) ∧ es = mrEmit j.base ord
    | _ => es = []

/-- `imager` of stldice-mr, cmd/stldice-mr/stldice-mr.go:232-262: no mirroring, no border. -/
def MrImage (dim : Int) (vs : List VoxelInfo) (img : Image) : Prop :=
  ∃ ord : List ((Int × Int) × Bool), ord.Perm (collectPixels (fun v => (v.X, v.Y)) vs) ∧
    img = paint 0 (Image.blank dim dim) ord

/-- The whole pipeline, cmd/stldice-mr/stldice-mr.go:60-66: `img` is the image of slice `z`; a slice to
    which nothing was emitted has no image.  gleam's `GroupBy` may deliver a group in any order.
    The jobs are those of stl2svx (cmd/stldice-mr/stldice-mr.go:82-169); their offsets are not used. -/
def MrRun {F : Type} [GoFloat F] (dim z : Int) (jobs : List (BvInfo F)) (img : Image) : Prop :=
  ∃ ess : List (List (Int × VoxelInfo)), List.Forall₂ MrEmitRun jobs ess ∧
    ∃ vs : List VoxelInfo, vs ≠ [] ∧ vs.Perm (mrGroup z ess.flatten) ∧ MrImage dim vs img

end StlDice
