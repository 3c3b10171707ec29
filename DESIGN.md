# DESIGN

## Technique
Lean 4 model of gmlewis/stldice, function by function, in `lean/Verif/Model`; small independent
specifications in `lean/Verif/Spec` (file formats, shells, meshes, STL text, schedules); helper lemmas in
`lean/Verif/Lemmas`; the property theorems in `lean/Verif/Props`, each followed by `example`s that meet
its hypotheses with a concrete, non-trivial case.  `lean/Verif/Validate` runs the repository's own unit
tests on the model (kernel-checked), as evidence that the model is faithful.

Where the code does not do what its documentation or a user would expect, the property is stated as what
the code does do, for all inputs (usually as an iff), and the expectation is refuted by a theorem with a
concrete witness.  The list is in "Disagreements" below.

## Plan per property
What is modelled, and how it is proved.  The theorem names are in MANIFEST.json.

- **C01** A BinVOX behaves like a map of voxels: Model BinVOX with optional (nil-able) maps; induct over the list of operations against a function-valued spec.
- **C02** Dim, VoxelsPerMM and MBB agree with the struct documentation: GoFloat over ℚ; linear arithmetic.
- **C03** binvox write/read round trip: Byte-level writer and reader models; decode∘encode by induction over runs; header text round trip for integers proved, for floats assumed as the law parse(fmt x)=x (instance given).
- **C04** binvox files are well formed and canonical: Induction over encode's fold; Spec.expand of the pairs.
- **C05** The binvox writer does not depend on map order or insertion history: encode depends on the map only through lookup; extensionality.
- **C06** The binvox reader accepts exactly the well-formed files: Grammar predicate in Spec, iff with the reader model.
- **C07** The binvox reader places voxel i of the data correctly: Cursor invariant (xi,zi,yi) ↔ index by division.
- **C08** Sub-region reads return exactly a closed box of voxels: Reader as a fold over the data with a cursor; membership of the result characterised by the closed box; success of the sub-region read by the header checks; witness separating it from the half-open box.
- **C09** Sub-region writes hold exactly the selected voxels; where they lie in the world: Same encode/decode lemmas with an offset region; world positions in ℚ, pitch = Scale/max count.
- **C10** A truncated binvox file never yields wrong voxels: Prefix lemma: reader on a prefix of the pairs.
- **C11** Which failed binvox writes are reported: Writer with an outcome per Write call; exact condition (iff) by running through the calls; header failures proved unreported.
- **C12** The run-length producer and the writer never deadlock or lose runs: Bounded channel state machine; invariant + progress.
- **C13** vshell.New computes the exact outer shell: findNeighbors as 27-bit computation; BitVec 32 testBit lemma.
- **C14** Neighbour relations recorded in a shell are symmetric: Case analysis on 27 offsets.
- **C15** Adding to a shell does not depend on map order: Perm invariance of the folds.
- **C16** Incremental merge of disjoint models holds the shell of the union: Slice/backing-array model with pointers (`arr0`/`cur`, capacity); histories as an inductive relation, invariant by induction; exact when no slice grows; witnesses with reallocation.
- **C17** A shell lists every position at most once unless a listed voxel is added again: Invariant over histories; witness for adding a listed voxel again.
- **C18** Merging keeps relative and absolute positions: Integer offset theorem.
- **C19** Merging preserves the resolution: ℚ arithmetic.
- **C20** Add rejects what it cannot merge and leaves the shell alone: Error branches.
- **C21** vshell write/read round trip: Record encoder/decoder; exact characterisation (vsh_roundtrip_iff): the file holds each run with its length modulo 65536, so the non-zero values keep their indices iff long runs are confined to the trailing empty cells.
- **C22** Runs in vshell files survive iff shorter than 65536: 16-bit counter in the run fold; byte-level decode of the runs modulo 65536; faithful iff every maximal run is shorter.
- **C23** The vshell reader accepts exactly the well-formed files: Grammar iff.
- **C24** A truncated vsh file never yields wrong voxels: Prefix lemma.
- **C25** voxcut removes exactly the cut voxels: Set characterisation for all orders.
- **C26** voxcut ignores the translations of base and cut: voxcut factors through the voxel indices; iff with the positioned cut.
- **C27** The order of cuts does not matter: Fold/permutation.
- **C28** The VOX output byte for byte: Byte-exact layout theorem; declared and real sizes computed from it.
- **C29** Voxelize never leaves the requested subregion but to the left: Law-free floats: holds for any float semantics.
- **C30** Voxelize is the union of its slices under every schedule: Interleaving = any permutation of set events; union.
- **C31** Line rasterisation hits both end points without gaps: Bresenham invariant in ℤ, 8 octants.
- **C32** Plane intersection points lie on the plane and on the edge: ℚ.
- **C33** The shell of the mesh is always voxelized: Scan-line spec.
- **C34** Dicing covers the model exactly once iff the dimensions are divisible: Integer division.
- **C35** Dicing does not change the voxelization: ℚ: floor shift.
- **C36** Tile file names are distinct: String injectivity.
- **C37** Re-running a dice job is idempotent: File-system model; witness and partial.
- **C38** voxcut-dice tiles partition the model: Integer arithmetic.
- **C39** binvox-dice boxes tile the bounding box: ℚ.
- **C40** stl.Merge merges every file exactly once with bounded concurrency: Worker-pool state machine.
- **C41** A slice image is white exactly where base minus cuts is solid: Fold over arrival list, order independence.
- **C42** When an agent survives a slice: Agent run as a fold over tiles and voxels with every schedule; exit condition as iff over filled tiles.
- **C43** The master never gives one agent two slices at a time if agents register only while idle: Invariant of the transition system under the registration discipline; reachable counterexample without it.
- **C44** What a returned job contains: Transition system; invariant of the zip contents (permutation of exactly the successful slices); what a failure does.
- **C45** SVX entry names are distinct and match the manifest iff the prefix is out: String injectivity of padded decimal numbers; iff for the prefix.
- **C46** Jobs that do not overlap do not mix their slices: Invariant while jobs do not overlap; witness histories for overlapping jobs.
- **C47** svx2stl adds exactly the bright pixels: Fold.
- **C48** The voxel size svx2stl gives its model: ℚ: pitch of the model; iff.
- **C49** MarchingCubes produces a closed oriented surface: Finite table by kernel evaluation over all 256 configurations, lifted to all voxel sets by a local-to-global sum argument.
- **C50** ManifoldMesh produces a closed surface: Same, with midpoint subdivision; good configurations; witnesses.
- **C51** ManifoldMesh classifies every grid cell correctly: Fold invariant over the map.
- **C52** TriangleLess is a strict weak order: Order axioms.
- **C53** What a stldice slave keeps and gives back: Server as a transition system over disk, running handlers and replies, with crashes and restarts; invariant over all histories.
- **C54** STL data is parsed to exactly the triangles in it: Byte-level models of bufio.Scanner, strings.Fields, encoding/binary; independent writer of STL text and binary in Spec; parse∘print; iff for the choice of format and for the panic.
- **C55** Bounding-box strings are parsed to the six numbers written: Matcher with the priorities of Go regexp; soundness (shape) by induction over the expression, completeness by following the priorities.
- **C56** voxcut on a tile writes exactly base minus cuts of that tile: Compose the reader, cut and writer models over one region.
- **C57** Which failed vsh writes are reported: As C11, for the vsh writer.
- **C58** The vsh run producer and writer never deadlock or lose runs: Same channel machine as C12.
- **C59** A failed VOX write is reported: Sink with arbitrary failures.
- **C60** Executing voxcut-dice stops at the first tile in which nothing survives: Induction over the tile list.
- **C61** A dry-run command line stands for the same arguments: Word splitting of byte strings.
- **C62** When the merge commands refuse to overwrite their output: Decision logic over lists of names.
- **C63** A triangle with its second vertex exactly on the slice plane: ℚ case analysis.
- **C64** What stldice-mr draws: Fold over emits of all tiles; exact image; equals the undiced slice for one tile.
- **C65** Which slice jobs an agent can do: Decision logic per file; iff.
- **C66** A job finishes unless every agent is lost: Transition system; measure that every step but registrations and new jobs decreases; stuck states characterised; starved jobs as an invariant.
- **C67** When the manifest's grid describes the images: ℚ iff.
- **C68** When the stl2svx command writes a complete archive: All interleavings of two call sequences on one zip writer; iff.
- **C69** What svx2stl reads back from stl2svx: Compose writer names, `Sscanf` model and image scan; 9999 slices refuted.
- **C70** ManifoldMesh encloses the volume of the voxels: per-cell flux of the handled blocks (kernel-computed finite table), summation by parts over the grid.
- **C71** ManifoldMesh is the skin of the voxels: per-cell table for orientation, place and area; counting faces by shifting sums.
- **C72** manifold-mesh and marching-cubes from file to file: Commands as relations between disks and exits, one rule per exit, with all outcomes of the file system; the STL parser of C54 applied to the file; closedness of a mesh as a permutation of its edges, which every map of corners preserves.
- **C73** ToMesh puts the voxel mesh in its place: The library mesher is a parameter with a specification (which a concrete mesher is proved to meet, and which allows corners inside edges); affine maps of closed surfaces and their volume (sum over edges cancels).
- **C74** What the outputs of one voxcut run hold: voxcut as a relation between disks; composition of the closed-box read theorem (C08) with the cut loop (C25); overlap of neighbouring tiles as a theorem.
- **C75** merge-stl from files to file: The worker pool of C40 composed with the command rules and the STL writer/parser.
- **C76** merge-binvox from files to file: C16 (with the origin and dimension invariants) composed with the vsh round trip of C21 and the binvox reader.
- **C77** The script that stldice prints: The command as a relation from directory and flags to output, directory and exit; text of the script compared with an independent specification; the set of prefixes by an invariant over the arguments.
- **C78** stldice followed by its script: The printed text split back into words and run line by line on the disk; composition of dicing (C33, C34), reading (C06), cutting (C25), ToMesh (C73) and merging (C75); double counting over tiles for the volume; existence of runs.
- **C79** voxcut-dice from its command line to the tile files: The nested loops as a list of tiles; each command parsed back by the model of package flag; composition of C74 over the tiles in order, by induction on the list.
- **C80** Command lines: The package flag as a function on argument lists; iff with a grammar of command lines by induction on their length; the words of the script parsed by it.
- **C81** svx2stl from its command line to the STL files: svx2stl as a loop over its arguments on a disk; induction on the arguments; geometry from C48, C52 and C69.
- **C82** binvox-dice and its script: The printed text as a function and as lines of words; a run of the lines on a disk with binvox as a parameter that takes the first free number; invariant: the numbered files of a stem are a list that each line extends.
- **C83** float64 and float32 as the code computes with them: Rounding as an integer division on a scaled fraction; shown to be the nearest with ties to even against an independent specification (nearest among all m*2^e); consequences by order arguments.
- **C84** MarchingCubes in float64: The same model of MarchingCubes at the type F64; every vertex is lo+(hi-lo)/2 seen from either end, equal when the half step is a float64; error bounds by induction on the operations; two kernel-checked witnesses for cracks.
- **C85** ManifoldMesh in float64: The same model of ManifoldMesh at F64; every point is one function of grid coordinates, so the mesh is the image of the exact one under a map of points; error bounds per operation.
- **C86** Merging models in float64: The same model of Add and Merge at F64; the resolution of the shell is an invariant up to a relative error per step; induction on the models; witnesses for every schedule.
- **C87** Voxelizing and dicing in float64: The same model of Voxelize and diceMesh at F64; error bounds for slice heights, cut points and grid coordinates; a coordinate further from a border than its error has the same floor; composed with C29 and C35 for exact arithmetic. A concrete tetrahedron in general position; kernel-checked witnesses for the two violations.
- **C88** The boxes of binvox-dice in float64: The bounds are lo+(hi-lo)*(i/f) rounded; monotone because rounding is; an increasing chain of cuts tiles the interval between its ends (induction); error bounds per operation; a witness for every number of boxes.
- **C89** Float64 numbers as text: Printing as a search for the smallest number of digits whose neighbouring decimals round back; 17 digits suffice since distinct float64 are far enough apart; minimality because rounding is monotone. Parsing as a recursive reader, shown equivalent to a grammar. The result is an instance of the laws of text all file properties assume.
- **C90** A network stl2svx job from the client's command line to its file: The client as a relation between disks, given what calls may return; what calls may return is a reachable state of the transition system of C43–C46 whose environment is made of agents of C42; the archive of a lone job is then determined, and its voxels follow from C67 by reading it as svx2stl does. Existence of runs by construction.
- **C91** The address an agent registers: The loops as a recursion over all addresses; the first usable one, or the last of all, by induction.
- **C92** stl2svx from its command line to its file: The program as a relation between disks: loading and dividing the first file, the interleaving of the two goroutines (C68), the slices (C41, C42), the end. What svx2stl reads by the lemma that C90 uses, since both archives are permutations of each other.
- **C93** stldice-mr from its command line to its files: The program as a relation between disks; one run emits one list of voxels per job, the groups of these lists are the images written (C64 for what each shows); which groups are empty follows from voxelize_exact for every job.
- **C94** voxcut -ostl and ToMesh in float64, and in the STL file: place of mesh.go is, in float64, a monotone function on each axis, as is the rounding to float32; monotone functions on the axes keep surfaces closed whose corners inside edges lie on axis-parallel edges (axisCuts_move). Error bound per corner from the roundings of the four operations.
- **C95** stldice followed by its script, in float64: The proof of C77 made generic in the number type (what each tile file reads back as is a parameter), instantiated with dice_f64_same_voxels (C86/C87), toMesh_closed_f64 and stl_closed_f32 (C94); tiles_count partitions the grid.
- **C96** Values of integer and boolean flags: Spec/IntText (inductive: digits with single underscores, bases, signs) against Model/Flag.parseInt0 (the loop of strconv.ParseUint and underscoreOK): induction over the text both ways. Spec/CmdLine and Spec/Format use these specifications, not the functions of the model.
- **C97** The voxels of the surface lie on the surface: Spec/Accuracy (points of a triangle, middles of voxels, distances). Lemmas/Raster: exact description of the line algorithm in the first octant, from it that each plotted cell is within half a cell of the line between the end cells, and each point of the line within one of a plotted cell, in all octants; plus half a cell between a point and the middle of its cell.
- **C98** Convex solids are voxelized to within one voxel: Spec/Solid. Sections of the triangles at the height of the slice form a closed ring of segments (each directed edge of a closed mesh has its reverse); Lemmas/Polygon: walking up and down such a ring reaches the height of every interior point on the left and on the right (extremal arguments over the finite list). By convexity triangles facing left touch the row only left of a deep voxel and those facing right only right of it; so the count of first touches is decided as entry and not as exit before it. Float64 through C87.
- **C99** Inside is consistent along rows, not across rows: First half from voxelize_exact and C97. Second half: two prisms of 24 and 28 triangles, evaluated in the kernel with the float64 model.
- **C100** Printed voxels, cells and models can be read back: Model/Strings, Spec/Strings (names of offsets, lists of neighbours). A format whose verbs are followed by bytes that do not occur in the arguments determines its arguments (induction over the format); hexadecimal text by its value; neighbour lists by filtering the 26 offsets.
- **C101** When a server becomes an agent: Model/Server: the process as a transition system with an arbitrary network. Invariant: the shape of the history at each place.
- **C102** stl2svx in float64: The tiles of a job are near the parts of its exact grid (C87), so they fill the same cells; parts of a grid fill what the whole does (C41). The rest of the way is C90 and C92 with this in place of exact arithmetic; the lemma about reading archives holds for every arithmetic.
- **C103** Voxelize in float64 is accurate for every mesh: As C97, from the height the program computes for the slice: taken as exact, every later step has a relative error of a few last bits (Lemmas/CutFloat), whatever the slope of the edge, so a cut point is within 2^-48 R of a point of the edge. Spec/AccuracyFloat states it with points and distances in space only.
- **C104** Voxelize in float64 fills convex solids whatever their position: The cut of a convex mesh at the computed height of the slice is a closed convex polygon; a row through its deep inside is entered left and left right of the voxel whatever the rounding (C103 bounds it), so the count of enterings and leavings of the fill rule is settled left of the voxel.
- **C105** Arguments that are no command line: Model/Flag.parse against Spec/CmdLine: CommandLine (as in C80) and AsksHelp; the usage case of the main of each command.
- **C106** Dicing in float64 is accurate whatever the position of the mesh: C103 and C104 for the region of a tile, which is (DiceFloat) the part of the exact grid it stands for up to rounding; distances carried over to the grid of the undiced job.
- **C107** The marching-cubes surface encloses exactly the voxels of the model: Spec/Winding: rays and how often they leave. Lemmas/MarchingRay: along each of the four x edges of a cell and in each of four cones of directions, every triangle of each of the 256 rows is either crossed or missed, and crossings add up to (corner present) - (next corner present); then the cells of the ray telescope.
- **C108** The ManifoldMesh surface encloses exactly the voxels of the model: As C107, with Lemmas/ManifoldRay: in each quarter of a well-composed cell and each of the 14 parts the possible edges cut it into, every triangle is crossed or missed and the crossings add up to (corner present) - (next corner present).
- **C109** 64-bit integers in the file readers and writers: Model/Int64: read and write of both formats with every addition wrapped to 64 bits; proved equal to the unbounded model by induction over the data, with the decoder position inside the grid as invariant.
- **C110** A failed vsh write leaves its encoder goroutine behind: Model/VShellChan: the encoder, the channel and a writer that writes each run at once and leaves its loop at the first failure; invariant (received + buffered + future = all runs; the file holds the received runs) and measure, then a case analysis of the states without successor.
- **C111** Overflow, infinities and NaN do not touch moderate jobs: Model/Ieee: the whole of binary64, a second instance of GoFloat. A relation between a finite Ieee number and an F64 with a bound 2^n is carried through each operation of Voxelize and of the layout; no operation overflows, comparisons and conversions agree, so the rasterized cells are the same.
- **C112** A region without finite place or scale stays empty: In Model/Ieee a non-finite value stays non-finite through the operations that use it, comparisons with it fail, and its conversion to int is the smallest int, a cell outside of every region.
- **C113** Every float64 survives its text: Model/IeeeText follows readFloat and special of strconv byte by byte; the reader is shown equivalent to a grammar of the literals (Spec/IeeeText); printing reuses the shortest decimals of C89 and the equivalence gives reading back. The laws of text then hold of all float64, and the file properties apply.
- **C114** Meshes in full float64: Each coordinate is followed through the computation with a bound on its size, so no operation overflows and the result is the same number (Is, IsP of C111); a separate invariant shows it is no negative zero, so the mesh is the image under one map of points and closedness carries over (Spec/IeeeMesh, Props/IeeeMesh).
- **C115** Merging in full float64: Shells are related field by field (SameShell); one Add is followed with bounds on the resolution, and the drift bound of C86 keeps the bounds over the whole merge (Props/IeeeMerge).
- **C116** stldice and its script in full float64: The job is related to the same job with rounding alone: box, scale, layout, tiles (C111, C112) and the mesh of each tile, whose coordinates are bounded so that no operation overflows; then C95 and the file-level theorem of any float type (Spec/IeeeScript, Props/IeeeScript).
- **C117** The settings of the commands: The settings are listed once more in Spec/FlagNames; a lookup lemma for tables without double names, and the parser after valid settings (Props/FlagNames).
- **C118** Dicing, then merging into one shell: The content of the tile files (C78) is fed to the merge of read files (C76), whose placement is exact if the first tile is below all others; the union of the tiles is the undiced model. The violation is a job of four tiles run symbolically for all map orders (Props/DiceThenMerge).
- **C119** A shell built from overlapping models keeps every exposed voxel: Induction over the main loop of Add with an invariant that needs no disjointness (every bit recorded is a neighbour in the union; every exposed voxel visited is listed; only enclosed voxels are marked for removal), then induction over the history (Props/ShellOverlap).
- **C120** Dicing, then merging into one shell, in float64: Rounding bounds: a product within an eighth of a whole number is cut off to it or one less; the drift bound of C86 keeps the resolution near through all files; C119 gives the voxels (Props/MergeNear); the tiles read back by C90/C95 lie within a thirty-second of a voxel of their places (Props/DiceMergeFloat).
- **C121** The goroutines that compute a slice: Transition system of the three goroutines and two channels (Model/SlicePipe); invariant: received ++ under way = what the jobs done and the current one sent; a lexicographic measure for termination; both directions of the equivalence with SliceRun (Props/SlicePipe).
- **C122** What one job can do to the stl2svx service: Model/Wire.lean: the messages with absent parts, the decoding loop of stl.New, NewJob and SliceJob on them; histories of the master of Model/Master. Proof: an invariant bounds idle agents plus calls running or failed by the registrations; a bad job can only have failed calls.
- **C123** Merging the tiles of voxcut-dice stacks them on one another: Lean: Props/CutDiceMerge.lean. A general lemma on merging models with one common header (nothing moves, nothing grows, the shell keeps the exposed voxels of the union: from C119), the region round trip (C09) for the tile files, and an induction over the tiles for a faultless run; the spec is `TileHolds` (what a reader finds) and `Stacked` (the superposition).
- **C124** One empty file spoils merge-binvox: Lean: Props/EmptyFile.lean, over the IEEE model of float64 (Model/Ieee.lean): Dim 0 gives a resolution of exactly +0; the quotient of the resolutions is +Inf for every positive scale (no underflow: the dimension is at least 1 and the scale below 2^1024), so is the new scale; a finite dimension divided by +Inf is 0, whose int differs from that of any resolution of 1 or more.
- **C125** voxcut-dice with sizes beyond the ordinary: zero, negative, and steps that overflow: The loops of voxcut-dice with 64-bit additions (Model/VoxcutDice, Model/CutDiceCmd); equal to the unbounded loops when the steps fit (Lemmas/Steps64), which is what C38 and C79 use; a loop that ended well passed no box starting below zero, by induction on the run, so all its steps fitted.
- **C126** A dice job killed at any moment loses at most one tile per kill, silently and for good: Model/DiceKill.lean: `DiceMoment` lists the states of the directory at the moments of the tile loops (between statements, after a skipped tile, inside a Write after any number of bytes), `KilledRuns` repeats it, each run with its own voxelizer schedule. By induction over the moments at most one tile file differs from absent/complete; by induction over the runs at most n, all prefixes of the schedule-independent complete bytes. The finishing run is `diceLoop_good`; prefixes of a written file are read by `write_truncated`. `run_is_moment` ties the moments to the loop of the model, `dice_kill_possible` shows none is superfluous; `wall_two_kills` is a concrete job of two tiles that loses both.
- **C127** The script of stldice can be killed and run again: Model/ScriptKill.lean: a killed run is a prefix of the script's lines, each with any outcome of its command (a kill inside a write is the outcome `part` of Save); any number of such runs one after another. The proof shows that killed runs change only output files of the script's own lines, that a voxcut line never reads an .stl file, that merge-stl -f leaves its own output out of its inputs and replaces it, and that every tile file is written anew before it is read; then the final run is transferred line by line between the two directories.
- **C128** The script of stldice merges every STL file whose name fits: Model/Script.lean, Model/StlMerge.lean and Model/DiceCmd.lean. The lines of the script are run from any disk: voxcut lines only read .binvox files and change their own output, the merge line takes what Glob finds without its own output. The names are compared digit by digit (jobName_fits): a dash ends a number in both names but for the last number of the prefix.
- **C129** voxcut, voxcut-dice, manifold-mesh and marching-cubes can be killed and run again: Model/CutKill.lean: moments of voxcut (VoxcutKilled), of voxcut-dice (the loops with a step that may be killed) and of the converters, and histories of starts. A run that ends well has put every output it names and read only its inputs (voxcut_move, runList_move), so it does the same from any disk that agrees outside the outputs; every start changes outputs only.
- **C130** merge-stl and merge-binvox can be killed and run again; merge-stl only with -f: Model/MergeKill.lean: histories of runs and kills over the command models; the glob and the inputs do not see the output file, so a run can be carried over to any disk that differs in it only.
- **C131** The servers of stldice ignore their command lines, and the master gives nothing back: Model/StlDiceHost.lean: processes and addresses of one host as a transition relation; invariant: each running server holds its fixed address.
- **C132** svx2stl, stl2svx and stldice-mr can be killed and run again: Model/SvxKill.lean: histories of runs and kills over the command models; a run does not look at its outputs, writes all of them, and is therefore carried over to any directory that differs in them only; for stldice-mr the slices with voxels are the same in every run (group_ne_iff).
- **C133** The script of binvox-dice cannot be killed and run again: The killed script is an inductive relation beside that of C82 (Model/BinvoxKill): between lines, or inside a binvox line, with a part of its file; proved by induction on the boxes, from the run of the first boxes (C82). Example: a script of two boxes killed after the first and run again.
- **C134** A client that goes away costs the stl2svx service an agent for every unfinished slice: Model/ClientGone: after the client has gone no SliceJob call of the job succeeds; all other steps of the master (Model/Master) stay possible. Invariant: a slice without image stays without; with the count of C122 (idle, running and failed calls are at most the registrations). Instance: two agents, two slices, client gone after the first call; both are lost and the next job is starved.
- **C135** A restarted stl2svx master has no agents: Compose the master's steps with server processes (Model/MasterRestart.lean). Invariant: no agent is idle, every task is waiting, a returned job has no slice; every process is ready or done, from which ServerStep has no registration. Induction over histories, with the restart re-establishing the invariant from the initial state.
- **C136** A dead agent costs the stl2svx service exactly one slice: Histories after the death carry the failed calls to the agent (Model/AgentDead.lean). Invariant: no failed call and the agent idle or working once, or one failed call, the agent in no place and the task dropped. The archive by job_reply_exact (C44) and the injectivity of the names.
- **C137** Slices that agents lose are silent gaps in the final model: Generalizes network_svx2stl (C90) from complete archives to any subset of images: the entries of the archive by answer_exact, read by svxRead_exact entry by entry. For the converse a master is driven through its slices, each succeeding or failing as the given set says.

## Trusted base
- Lean 4.33.0's kernel.  No axioms are added; every theorem depends on a subset of `propext`,
  `Classical.choice` and `Quot.sound` (those that only compute, e.g. the table facts, on `propext` alone
  or on nothing).  No `native_decide`, no `bv_decide`; facts about finite tables (edge tables, the 256
  grid-cell cases) are closed by `decide`/`decide +kernel`, over the whole finite domain.
- That the model is the program: every definition in `Model` cites the lines it models.  The modules in
  `Validate` run the repository's own golden tests (TestManifoldMesh, TestRead, TestAdd, TestDiffKeys,
  TestParseManifest, TestVoxelize) on the model; `seeded/LOG.jsonl` records what edited models break.
- The statements in `Props` and the definitions in `Spec`.

## Modelling conventions
- Go `int` is `Int` (no overflow) except in Model/Int64 (the file readers and writers with 64-bit wrap-around, C109), in the
  loops over the tiles of voxcut-dice (C125) and
  where the width matters: uint16 run counts, uint32 neighbour bit
  maps, byte values, int32 fields of VOX files.
- float64 is a type with operations and **no laws** (class `GoFloat`); theorems over it hold for IEEE
  doubles.  Theorems "in exact arithmetic" instantiate it with ℚ and say so in their statement. Theorems
  "in float64" (C83–C89, C94, C95) instantiate it with `F64`, the binary64 numbers with every operation rounded to nearest even
  (Model/Float64); not in it: overflow, NaN, division by zero, the sign of zero, fused multiply-add.  C111 and C112
  instantiate it with `Ieee` (Model/Ieee), the whole of binary64 with one NaN, conversion to int as on amd64, no fused multiply-add.  `Float`
  is an instance too (used by the validation runs).
- The text of a float (`%g`, `%v`, ParseFloat) is the class `FloatText`; the law parse (print x) = x and
  "no blanks" are the explicit class `LawfulFloatText` (instances: ℚ, `F64` with Go's shortest decimals, C89, and `Ieee`, all of float64, C113).
- A Go map is its content; every `range` enumerates it in an arbitrary order (any permutation, given by a
  schedule or quantified over).  A nil map is `none`; writing to it panics.
- Slices with aliasing (`vshell.Add`) are modelled with a backing array and a capacity.
- Goroutines, channels and RPC servers are transition systems; theorems quantify over all interleavings,
  all points of failure and all histories.
- Errors are values without their text; `log.Fatal` and panics are distinguished outcomes where it matters.
- Files are byte strings; a writer (`Sink`) may fail at any call, having stored any prefix.

## What is modelled, per file
| file | modelled | not modelled |
|---|---|---|
| binvox/binvox.go | everything | logging |
| binvox/read.go, write.go | everything: header grammar, RLE, region selection, channel | error texts |
| binvox/voxelize.go | everything (schedules included) | normals of the mesh are an input; logging |
| binvox/marching-cubes.go, manifold.go, face-templates.go | everything, all 256 table rows / cases | vertex normals (library) |
| binvox/mesh.go | everything | fauxgl `NewVoxelMesh` (library) is a parameter |
| binvox/gen-testdata.go | no | test generator, excluded from every build (`//go:build ignore`); it does not compile at this commit (it uses a field `Voxels` and a type `key` that do not exist) |
| vshell/*.go | everything | logging |
| stl/stl.go | worker pool, mutex, semaphore | fauxgl `LoadSTL`, `Mesh.Add` (concatenation) |
| stl2svx/agent, master, stl | everything but the gRPC transport; zip, PNG as abstract writers | transport, TLS, message limits |
| stl2svx/stl2svx-client, stl2svx-server | the client from its command line to its file, the entry of NewJob, stl.New and the address of an agent (Model/SvxNet), the start of a server (Model/Server) | gRPC; zip and PNG bytes are parameters |
| cmd/stldice, stldice-mr, binvox-dice, voxcut-dice, voxcut, merge-stl, merge-binvox, svx2stl, stl2svx, manifold-mesh, marching-cubes | the work they do on files; voxcut, merge-stl, merge-binvox, manifold-mesh and marching-cubes from arguments to files (Model/Commands); stldice from its command line to its script and that script (Model/DiceCmd, Model/Script, Model/CmdLines); voxcut-dice from its command line to its outputs (Model/CutDiceCmd); svx2stl likewise (Model/SvxCmd); stl2svx from its command line to its archive (Model/SvxLocal); stldice-mr from its command line to its images (Model/MrCmd); binvox-dice from its command line to its script and that script, with the external program binvox as a parameter (Model/BinvoxDiceCmd); package flag (Model/Flag) | usage texts, cloud storage, gleam |
| server/stldice-slave | everything but the transport | `SaveSTL` is library code, its format a definition |
| server/stldice-master | yes | its methods ignore their arguments and return empty replies |
| *.pb.go, *.proto | field lists only | generated code |

Libraries (fauxgl, archive/zip, image/png, encoding/xml, gleam, gRPC, the file system) appear as
parameters or as small definitions that say so in their comment.  `bufio.Scanner`, `strings.Fields`,
`encoding/binary`, `fmt.Sscanf` and the two regular expressions are modelled explicitly.

## Disagreements between the code and what one expects of it
Each is a theorem (a refutation with a witness), next to the exact statement that is true.
- C08 a sub-region read returns one layer too many on each side (`<=` for `<`).
- C09 a file written for a sub-region lies at the wrong place and may change its scale.
- C11, C57 errors while writing the header are ignored.
- C16 adding to a shell through stale pointers after a slice has grown loses neighbour updates.
- C17 adding a listed voxel again lists it twice.
- C21, C22 runs of 65536 equal cells in vsh files are lost.
- C26 voxcut computes the offset between base and cut and does not use it.
- C28 the declared sizes of VOX chunks do not match their content.
- C29, C34, C35 what dicing loses when the dimensions do not divide; voxels left of the region.
- C37 what re-running a dice job does with existing files.
- C42, C65 agents exit (`log.Fatal`) on jobs with more than one tile layer, or with tiny files.
- C43–C46, C66 the master: double booking, missing slices, names, mixed archives, starvation.
- C48, C67, C69 svx2stl and the manifest: voxel size and grid.
- C50 ManifoldMesh leaves holes and T-junctions for some configurations; the exact list is proved.
- C53 the slave never returns a mesh.
- C55 an unbracketed negative fourth number is not parsed.
- C60 voxcut-dice stops at the first empty tile.
- C62 merge-binvox overwrites its output without being asked.
- C63 a triangle with its middle vertex on the slice plane is skipped or doubled.
- C64 stldice-mr draws all tiles on top of each other.
- C68 stl2svx's archive may be incomplete.
- C74 the STL and VOX outputs of neighbouring voxcut tiles overlap by a layer.
- C75, C76 merging nothing panics and leaves an empty file; isolated voxels are lost in vsh files.
- C79 voxcut-dice stops where nothing is left; a first file `-h` makes no tile and reports success.
- C125 a dry run of voxcut-dice with a negative size can print a script of commands that voxcut refuses, and end well.
- C126 a tile file cut off by a kill is kept by every later run, which ends well and leaves the tile out of its script.
- C131 stldice-master and stldice-slave never call flag.Parse: their -port does nothing.
- C130 a killed merge-stl leaves a torn output that stops every later start without -f.
- C128 merge-stl takes every .stl file whose name begins with the prefix: jobs that differ only in -nz (1 and 10) mix, and so does what an earlier job of the same name has left.
- C80 if the base is the file `.stl`, every voxcut line of stldice's script fails.
- C81 svx2stl shows models made by stl2svx mirrored; the arguments `a` and `a.svx` have the same output.
- C82 a binvox file left over, or one that binvox did not make, shifts or loses all later boxes; `s.stl` next to `s_1.stl` is
  cut from the wrong model; `%` in a name is a formatting verb.
- C84 in float64 the surface of MarchingCubes can have cracks next to the coordinate planes.
- C86 in float64 Merge can fail for models of one resolution, and puts voxels at wrong places (it cuts off where it should round).
- C87 in float64 dicing can lose voxels at the border of tiles, and the widest side can get a voxel too many.
- C88 in float64 the last box of binvox-dice can end before the model does.
- C90 svx2stl cannot read archives made with another prefix than `out`; a request with zero divisions ends the master.
- C91 an agent on a host with only loopback or IPv6 addresses registers an address that cannot be used.
- C92 stl2svx without `-stl` panics, and so it may when its first image is begun before the archive exists; it reports success if the archive could not be written.
- C93 stldice-mr writes no image for a slice without voxels, and leaves that of an earlier run in place.
- C99 Voxelize can leave holes through a closed solid, and streaks outside of it, where two slanted walls meet within a row.
- C100 NeighborBitMap.String prints `allNeighbors & ` with nothing behind it when all 26 neighbours are there, `0x0 = ` when none is, and drops the centre bit in the long form.
- C101 An agent waits for the master only as long as grpc.Dial fails; when the registration itself fails (as it does when nothing answers at the master's address, since Dial does not wait) the process ends.
- C133 killed and run again, the script of binvox-dice cuts later boxes from the files of earlier ones, without an error; after a complete run it takes the files of the models as they were.
- C134 interrupting a client does not end its job: the job goes on and loses an agent for every slice that was not finished.
- C135 agents do not register again when the master is killed and restarted: the new master has no agent, and jobs sent to it wait for ever, until the agents are restarted too.
- C136 an agent that has died stays among the idle ones: the next slice given to it is lost, and its job succeeds without the image, even when other agents are free.
- C137 svx2stl opens an archive with lost slices without an error: the model in it has gaps, whole layers of voxels that are missing.
