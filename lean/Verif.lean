import Verif.Model.Basic
import Verif.Model.BinVox
import Verif.Model.Text
import Verif.Model.BinVoxIO
import Verif.Lemmas.GoMap
import Verif.Spec.Format
import Verif.Lemmas.Text
import Verif.Lemmas.Header
import Verif.Lemmas.Grid
import Verif.Lemmas.BinData
import Verif.Lemmas.RatText
import Verif.Props.BinVoxMap
import Verif.Lemmas.KeyAt
import Verif.Props.BinVoxFile
import Verif.Model.Chan
import Verif.Lemmas.Chan
import Verif.Props.Channel
import Verif.Model.VShell
import Verif.Spec.Shell
import Verif.Lemmas.Neighbors
import Verif.Lemmas.ShellAdd
import Verif.Lemmas.ShellExact
import Verif.Lemmas.ShellStep
import Verif.Props.Shell
import Verif.Props.ShellWorld
import Verif.Props.ShellHistory
import Verif.Model.VShellIO
import Verif.Spec.VFormat
import Verif.Lemmas.VData
import Verif.Lemmas.VEncode
import Verif.Props.VShellFile
import Verif.Model.Voxcut
import Verif.Props.Voxcut
import Verif.Props.VoxcutTile
import Verif.Model.Voxelize
import Verif.Spec.Voxelize
import Verif.Props.Raster
import Verif.Lemmas.Voxelize
import Verif.Lemmas.FloodFill
import Verif.Props.Voxelize
import Verif.Props.PlaneCut
import Verif.Props.VoxelizeLeft
import Verif.Model.Dice
import Verif.Props.Dice
import Verif.Lemmas.Names
import Verif.Props.DiceFiles
import Verif.Props.DiceKill
import Verif.Model.VoxcutDice
import Verif.Props.VoxcutDice
import Verif.Model.StlMerge
import Verif.Props.StlMerge
import Verif.Model.Svx
import Verif.Props.Imager
import Verif.Props.Svx
import Verif.Model.Master
import Verif.Props.Master
import Verif.Props.MasterProgress
import Verif.Props.SvxNames
import Verif.Model.SvxRead
import Verif.Props.SvxRead
import Verif.Props.SvxBack
import Verif.Model.SvxCli
import Verif.Props.SvxCli
import Verif.Model.Marching
import Verif.Spec.Mesh
import Verif.Lemmas.Marching
import Verif.Props.Marching
import Verif.Model.Manifold
import Verif.Lemmas.Manifold
import Verif.Lemmas.ManifoldSolid
import Verif.Props.Manifold
import Verif.Props.ManifoldSolid
import Verif.Props.ManifoldCases
import Verif.Props.TriangleLess
import Verif.Model.MbbText
import Verif.Props.MbbText
import Verif.Model.StlText
import Verif.Model.Slave
import Verif.Spec.StlText
import Verif.Props.StlText
import Verif.Props.Slave
import Verif.Model.Commands
import Verif.Spec.VoxelMesh
import Verif.Props.Commands
import Verif.Props.ToMesh
import Verif.Props.VoxcutOut
import Verif.Props.MergeStlCmd
import Verif.Props.MergeBinvoxCmd
import Verif.Props.VoxelMesh
import Verif.Model.DiceCmd
import Verif.Spec.DiceScript
import Verif.Props.DiceCmd
import Verif.Props.DiceRerun
import Verif.Model.Script
import Verif.Props.DiceScript
import Verif.Props.DiceThenScript
import Verif.Props.DiceRuns
import Verif.Props.ScriptKill
import Verif.Props.Strangers
import Verif.Model.Flag
import Verif.Model.CutDiceCmd
import Verif.Spec.CutDice
import Verif.Props.FlagParse
import Verif.Props.CutDiceLoop
import Verif.Props.CutDiceCmd
import Verif.Props.CutDiceRun
import Verif.Props.CutDiceSize
import Verif.Spec.IntText
import Verif.Spec.CmdLine
import Verif.Props.IntText
import Verif.Props.FlagLine
import Verif.Model.CmdLines
import Verif.Props.CmdLines
import Verif.Props.Scanf
import Verif.Props.Gaps
import Verif.Model.SvxCmd
import Verif.Spec.SvxCmd
import Verif.Props.SvxCmd
import Verif.Model.BinvoxDiceCmd
import Verif.Spec.BinvoxDice
import Verif.Props.BinvoxScript
import Verif.Props.BinvoxRun
import Verif.Model.Float64
import Verif.Model.Float32
import Verif.Spec.Float64
import Verif.Lemmas.Float64
import Verif.Lemmas.FloatError
import Verif.Props.MarchingFloat
import Verif.Props.FloatMesh
import Verif.Props.MergeFloat
import Verif.Spec.VoxelizeFloat
import Verif.Lemmas.CutFloat
import Verif.Props.VoxelizeFloat
import Verif.Props.DiceFloat
import Verif.Props.CutBoxFloat
import Verif.Model.FloatText
import Verif.Spec.FloatText
import Verif.Lemmas.FloatText
import Verif.Props.FloatText
import Verif.Props.FloatFiles
import Verif.Props.Outcomes
import Verif.Model.SvxNet
import Verif.Spec.SvxNet
import Verif.Props.SvxNet
import Verif.Props.SvxNetBack
import Verif.Props.SvxNetRuns
import Verif.Model.SvxLocal
import Verif.Props.SvxLocal
import Verif.Props.SvxLocalBack
import Verif.Model.MrCmd
import Verif.Props.MrCmd
import Verif.Spec.AxisMesh
import Verif.Props.ToMeshFloat
import Verif.Props.DiceScriptFloat
import Verif.Lemmas.Raster
import Verif.Lemmas.Polygon
import Verif.Spec.Accuracy
import Verif.Spec.Solid
import Verif.Props.VoxelAccuracy
import Verif.Props.VoxelConvex
import Verif.Props.VoxelSolid
import Verif.Props.VoxelRows
import Verif.Props.Strings
import Verif.Props.Server
import Verif.Props.SvxFloat
import Verif.Spec.AccuracyFloat
import Verif.Props.VoxelAccuracyFloat
import Verif.Props.VoxelConvexFloat
import Verif.Model.Usage
import Verif.Props.Usage
import Verif.Props.DiceConvexFloat
import Verif.Spec.Winding
import Verif.Lemmas.MarchingRay
import Verif.Props.MarchingInside
import Verif.Lemmas.ManifoldRay
import Verif.Props.ManifoldInside
import Verif.Props.Int64
import Verif.Props.VShellRoundTrip
import Verif.Props.VShellLeak
import Verif.Props.TriangleLessF64
import Verif.Props.Ieee
import Verif.Props.IeeeDice
import Verif.Props.IeeeVoxel
import Verif.Props.IeeeOdd
import Verif.Props.IeeeText
import Verif.Props.IeeeFmt
import Verif.Props.IeeeMesh
import Verif.Props.IeeeMerge
import Verif.Props.IeeeScript
import Verif.Spec.FlagNames
import Verif.Props.FlagNames
import Verif.Props.DiceThenMerge
import Verif.Props.ShellOverlap
import Verif.Props.MergeNear
import Verif.Props.DiceMergeFloat
import Verif.Model.SlicePipe
import Verif.Props.SlicePipe
import Verif.Model.Wire
import Verif.Props.Wire
import Verif.Props.CutDiceMerge
import Verif.Props.EmptyFile
import Verif.Props.CutKill
import Verif.Props.MergeKill
import Verif.Props.StlDiceHost
import Verif.Props.SvxKill
import Verif.Props.BinvoxKill
import Verif.Props.ClientGone
import Verif.Props.MasterRestart
import Verif.Props.AgentDead
import Verif.Props.SvxGaps
import Verif.Validate.ManifoldTest
import Verif.Validate.RepoTests
