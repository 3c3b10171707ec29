import Verif.Model.Dice

/-! # A dice job that is killed: the loops of cmd/stldice/stldice.go cut short at any moment -/

namespace StlDice
open GoFloat BinVOX

/-- The bytes `bv.Write(outFile, 0, 0, 0, 0, 0, 0)` puts into the file when nothing stops it,
    cmd/stldice/stldice.go:182 and binvox/write.go:16-64. -/
def wholeTileFile {F : Type} [FloatText F] (b : BinVOX F) : Bytes :=
  (b.write ⟨[], []⟩ ⟨0, 0, 0, 0, 0, 0⟩).1.out

/-- What can be found in the directory at some moment of the loops of cmd/stldice/stldice.go:160-185 over the
    tiles `ts`, all system calls made so far having worked: between two statements (`now`), after skipping a tile
    (160-165: its file exists; 177-180: it has no voxels), in the middle of `bv.Write` (182: the file is created
    and has received its first `n` bytes) and after it.
    Simplification: the bytes of a file arrive in order, and no later write happens before an earlier one
    (no loss of the operating system's own buffers, as in a power failure). -/
inductive DiceMoment {F : Type} [FloatText F] (outPrefix : Bytes) (vox : Key → BinVOX F) :
    List Key → FS → FS → Prop
  | now (ts : List Key) (fs : FS) : DiceMoment outPrefix vox ts fs fs
  | existing {t : Key} {ts : List Key} {fs fs' : FS} : fs.has (tileFile outPrefix t) = true →
      DiceMoment outPrefix vox ts fs fs' → DiceMoment outPrefix vox (t :: ts) fs fs'
  | empty {t : Key} {ts : List Key} {fs fs' : FS} : fs.has (tileFile outPrefix t) = false →
      (vox t).white.length = 0 →
      DiceMoment outPrefix vox ts fs fs' → DiceMoment outPrefix vox (t :: ts) fs fs'
  | writing {t : Key} {ts : List Key} {fs : FS} (n : Nat) : fs.has (tileFile outPrefix t) = false →
      (vox t).white.length ≠ 0 →
      DiceMoment outPrefix vox (t :: ts) fs (fs.set (tileFile outPrefix t) ((wholeTileFile (vox t)).take n))
  | written {t : Key} {ts : List Key} {fs fs' : FS} : fs.has (tileFile outPrefix t) = false →
      (vox t).white.length ≠ 0 →
      DiceMoment outPrefix vox ts (fs.set (tileFile outPrefix t) (wholeTileFile (vox t))) fs' →
      DiceMoment outPrefix vox (t :: ts) fs fs'

/-- The same `stldice` command started `n` times and killed every time, each time at any moment:
    cmd/stldice/stldice.go:125-190. -/
inductive KilledRuns {F : Type} [GoFloat F] [FloatText F] (mesh : Mesh F) (mbb : Box F) (L : Layout F)
    (nx ny nz : Int) (outPrefix : Bytes) : Nat → FS → FS → Prop
  | none (fs : FS) : KilledRuns mesh mbb L nx ny nz outPrefix 0 fs fs
  | again {n : Nat} {fs fs₁ fs₂ : FS} (vox : Key → BinVOX F) :
      KilledRuns mesh mbb L nx ny nz outPrefix n fs fs₁ →
      (∀ t, VoxelizeRun (tileModel L mbb t) mesh (.ok (vox t))) →
      DiceMoment outPrefix vox (tileIndices nx ny nz) fs₁ fs₂ →
      KilledRuns mesh mbb L nx ny nz outPrefix (n + 1) fs fs₂

end StlDice
