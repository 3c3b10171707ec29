import Verif.Model.Master

/-!
# svx2stl: cmd/svx2stl/main.go

The zip container, the XML decoder and the PNG decoder are libraries and not modelled: an entry comes
with the result of decoding it.  `fmt.Sscanf` is modelled for formats with a single `%Nd` (such as the
ones stl2svx writes) and names without white space.
-/

namespace StlDice
open GoFloat BinVOX

/-- A decoded image: its bounds and the grey value of each pixel (`color.GrayModel.Convert`). -/
structure Pic where
  minX : Int
  minY : Int
  maxX : Int
  maxY : Int
  gray : Int → Int → Nat

/-- The format `pre%Nd post` (without the blank), e.g. `density/slice%04d.png`. -/
structure SliceFmt where
  pre : Bytes
  width : Nat
  post : Bytes

/-- A `channel` element, cmd/svx2stl/main.go:130-134: whether `strings.EqualFold(Type, "DENSITY")`, and
    `Slices` (`none` is the empty string). -/
structure Channel where
  density : Bool
  slices : Option SliceFmt

/-- The decoded manifest, cmd/svx2stl/main.go:140-148 (the fields that are used). -/
structure SvxGrid (F : Type) where
  X : Int
  Y : Int
  Z : Int
  voxelSize : F
  channels : List Channel

/-- A file of the zip archive: its name, whether it can be opened, and what the XML and the PNG
    decoder make of its contents (`none` is an error). -/
structure ZFile (F : Type) where
  name : Bytes
  opens : Bool
  xml : Option (SvxGrid F)
  png : Option Pic

/-- `parseManifest`, cmd/svx2stl/main.go:106-182 (`none` is an error): the last density channel wins. -/
def parseManifest {F : Type} [GoFloat F] (x : Option (SvxGrid F)) : Option (BinVOX F × SliceFmt) :=
  match x with
  | none => none
  | some v =>
    if v.channels = [] then none
    else
      match v.channels.foldl (fun s c => if c.density then c.slices else s) none with
      | none => none
      | some f => some (⟨v.X, v.Y, v.Z, ofInt 0, ofInt 0, ofInt 0, mul v.voxelSize (lit 1000), some [], none⟩, f)

/-- Reading at most `n` digits (`fmt.Sscanf` with a field width). -/
def takeDigits : Nat → Bytes → Bytes × Bytes
  | 0, s => ([], s)
  | _ + 1, [] => ([], [])
  | n + 1, c :: s =>
    if isDigit c then ((c :: (takeDigits n s).1), (takeDigits n s).2) else ([], c :: s)

/-- The part of `fmt.Sscanf` after the sign: digits, then the literal text; what follows is ignored. -/
def scanDigits (w : Nat) (post s : Bytes) : Option Nat :=
  match takeDigits w s with
  | ([], _) => none
  | (c :: ds, r) =>
    match stripPrefix post r with
    | none => none
    | some _ => some (digitsVal (c :: ds))

/-- `fmt.Sscanf(name, pre%Nd post, &sliceNum)`, cmd/svx2stl/main.go:78-81; `none` if the error is not
    nil or nothing was read.  A sign counts for the width. -/
def sscanf (f : SliceFmt) (name : Bytes) : Option Int :=
  match stripPrefix f.pre name with
  | none => none
  | some [] => none
  | some (c :: r) =>
    if c = 43 then (scanDigits (f.width - 1) f.post r).map fun n : Nat => (n : Int)
    else if c = 45 then (scanDigits (f.width - 1) f.post r).map fun n : Nat => -(n : Int)
    else (scanDigits f.width f.post (c :: r)).map fun n : Nat => (n : Int)

/-- The pixels in the order of the two loops, cmd/svx2stl/main.go:96-97. -/
def Pic.pixels (img : Pic) : List (Int × Int) :=
  (intRange img.minY (img.maxY - img.minY)).flatMap fun y =>
    (intRange img.minX (img.maxX - img.minX)).map fun x => (x, y)

/-- One pixel, cmd/svx2stl/main.go:98-101. -/
def scanPixel {F : Type} (img : Pic) (z : Int) (r : Res (BinVOX F)) (p : Int × Int) : Res (BinVOX F) :=
  match r with
  | .ok m => if 128 ≤ img.gray p.1 p.2 then m.Add p.1 p.2 z else .ok m
  | r => r

/-- `scanImage`, cmd/svx2stl/main.go:95-104. -/
def scanImage {F : Type} (img : Pic) (z : Int) (m : BinVOX F) : Res (BinVOX F) :=
  img.pixels.foldl (scanPixel img z) (.ok m)

/-- The loop of `read`, cmd/svx2stl/main.go:62-90, with the variables `model` and `sliceNameFmt`
    (`none` is nil resp. the empty string).  An entry that cannot be opened ends the process, which is
    counted as an error. -/
def readEntries {F : Type} [GoFloat F] : Option (BinVOX F) → Option SliceFmt → List (ZFile F) →
    Res (Option (BinVOX F))
  | model, _, [] => .ok model
  | model, sf, f :: fs =>
    if f.opens = false then .err
    else if f.name = ascii "manifest.xml" then
      match parseManifest f.xml with
      | none => .err
      | some (m, sf') => readEntries (some m) (some sf') fs
    else
      match sf with
      | none => .err
      | some sf' =>
        match sscanf sf' f.name with
        | none => .err
        | some n =>
          match f.png with
          | none => .err
          | some img =>
            match model with
            | none => if img.pixels.any (fun p => 128 ≤ img.gray p.1 p.2) then .panic
                else readEntries none sf fs
            | some m =>
              match scanImage img n m with
              | .ok m' => readEntries (some m') sf fs
              | .err => .err
              | .panic => .panic

/-- `read`, cmd/svx2stl/main.go:52-93, for a readable zip archive. -/
def svxRead {F : Type} [GoFloat F] (files : List (ZFile F)) : Res (Option (BinVOX F)) :=
  readEntries none none files

/-- One file in `main`, cmd/svx2stl/main.go:34-47, up to the meshing: a nil model is dereferenced by
    `MarchingCubes`. -/
def svxLoad {F : Type} [GoFloat F] (files : List (ZFile F)) : Res (BinVOX F) :=
  match svxRead files with
  | .ok (some m) => .ok m
  | .ok none => .panic
  | .err => .err
  | .panic => .panic

end StlDice
