import Mathlib.Data.List.Lex
import Verif.Model.Dice

/-! # Specification of the names and the script of stldice -/

namespace StlDice
namespace Spec

/-- Texts joined by dashes. -/
def dashed (ps : List Bytes) : Bytes := (ps.intersperse [45]).flatten

/-- A line of words separated by single blanks. -/
def line (ws : List Bytes) : Bytes := (ws.intersperse [32]).flatten ++ [10]

/-- `base-DIM-NX-NY-NZ`. -/
def jobName (base : Bytes) (dim nx ny nz : Int) : Bytes :=
  dashed [base, fmtInt dim, fmtInt nx, fmtInt ny, fmtInt nz]

/-- `job-XX-YY-ZZ`: the tile's indices with at least two digits each. -/
def tileName (job : Bytes) (t : Key) : Bytes := dashed [job, padInt 2 t.X, padInt 2 t.Y, padInt 2 t.Z]

/-- The script for these tiles: `out` is the name of the job's result without extension, `jobs` are
    the names of the jobs of the arguments, the base first. -/
def scriptText (out : Bytes) (jobs : List Bytes) (tiles : List Key) : Bytes :=
  line [ascii "#!/bin/bash", ascii "-x"] ++
  (tiles.flatMap fun t => line ([ascii "voxcut", ascii "-ostl", tileName out t ++ ascii ".stl"] ++
    jobs.map fun j => tileName j t ++ ascii ".binvox")) ++
  if 1 < tiles.length then line [ascii "merge-stl", ascii "-f", ascii "-prefix", out] else []

end Spec
end StlDice
