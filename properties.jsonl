{"id": "C01", "title": "A BinVOX behaves like a map of voxels", "statement": "After any sequence of Add and AddColor calls on a model returned by New, Get(x,y,z) reports a voxel iff one was added there, returns White if it was ever added with Add, otherwise the colour of the last AddColor at that position. Calling Add on a full-colour model, or AddColor on a white one, panics (the map is nil) and nothing is stored.", "quantifier": "every New flag, every finite sequence of Add/AddColor calls, every coordinate", "why_tests_cant": "the number of call sequences and coordinates is unbounded", "anchors": ["binvox/binvox.go:New", "binvox/binvox.go:Get", "binvox/binvox.go:Add", "binvox/binvox.go:AddColor"]}
{"id": "C02", "title": "Dim, VoxelsPerMM and MBB agree with the struct documentation", "statement": "Dim is the largest of NX,NY,NZ; for Scale>0 there are Dim/Scale voxels per mm, the minimum bounding box starts at (TX,TY,TZ), its largest side is exactly Scale, and the cube of every voxel with indices inside the dimensions lies inside the box; for Scale<=0 VoxelsPerMM is 1. Exact arithmetic.", "quantifier": "all dimensions, translations, scales and in-range voxels", "why_tests_cant": "continuum of scales", "anchors": ["binvox/binvox.go:Dim", "binvox/binvox.go:VoxelsPerMM", "binvox/binvox.go:MBB"]}
{"id": "C03", "title": "binvox write/read round trip", "statement": "Reading (whole model) a file produced by a successful whole-model Write of a model with at least one white voxel and non-negative dimensions succeeds and returns the same NX,NY,NZ,TX,TY,TZ,Scale and exactly the white voxels lying inside [0,NX)x[0,NY)x[0,NZ). A model without white voxels is written as a 0x0x0 file that reads back with no voxels and the same translation and scale.", "quantifier": "every white voxel set (any size, any run lengths), dimensions, translation and scale", "why_tests_cant": "run lengths, grid sizes and voxel sets are unbounded", "anchors": ["binvox/write.go:Write", "binvox/write.go:write", "binvox/write.go:encode", "binvox/read.go:Read", "binvox/read.go:read"]}
{"id": "C04", "title": "binvox files are well formed and canonical", "statement": "The data section written for any region is a sequence of (value,count) byte pairs with value 0 or 1 and count 1..255, whose counts add up to exactly nx*ny*nz, whose expansion lists voxel presence with y fastest, then z, then x, and the number of voxels reported written equals the number of white voxels in the region. Two adjacent pairs carry the same value only if the first has count 255.", "quantifier": "every voxel set and region", "why_tests_cant": "unbounded run structure", "anchors": ["binvox/write.go:write", "binvox/write.go:encode"]}
{"id": "C05", "title": "The binvox writer does not depend on map order or insertion history", "statement": "Two models with the same header fields and the same set of white voxels produce byte-identical files, whatever the Go map iteration order or the order in which voxels were added.", "quantifier": "all pairs of models with equal voxel sets; all map orders", "why_tests_cant": "Go randomises map order; tests see a few orders", "anchors": ["binvox/write.go:write", "binvox/write.go:encode"]}
{"id": "C06", "title": "The binvox reader accepts exactly the well-formed files", "statement": "read returns a model iff all six start/count parameters are non-negative, the five header lines are well formed with dimensions that fit an int, the start is within the dimensions, the input ends cleanly (no I/O error) on a pair boundary, every pair has value 0/1 and a non-zero count, and the voxels described do not overrun the grid; in every other case it returns an error and no model.", "quantifier": "every byte string, every I/O outcome at the end of it, all parameters", "why_tests_cant": "the input space is all byte strings", "anchors": ["binvox/read.go:read"]}
{"id": "C07", "title": "The binvox reader places voxel i of the data correctly", "statement": "For a file with positive dimensions the model returned by a whole-model read has a voxel at (x,y,z) iff the ((x*NZ)+z)*NY+y-th value of the expanded data is 1; hence every voxel read lies inside the stated dimensions.", "quantifier": "every accepted file", "why_tests_cant": "unbounded data", "anchors": ["binvox/read.go:read"]}
{"id": "C08", "title": "Sub-region reads return exactly a closed box of voxels", "statement": "Read with start s and count c (0 = all) of a file that can be read as a whole succeeds iff no start or count is negative and every start is at most the dimension; it keeps the header and, if the dimensions are positive, returns, unshifted, exactly the file's voxels with s <= i <= s+c in each direction (both ends included, unlike the half-open box of the flag documentation: the two differ iff a voxel lies on a layer i = s+c).", "quantifier": "every file, every start and count", "why_tests_cant": "all files, regions", "anchors": ["binvox/read.go:Read", "binvox/read.go:read"]}
{"id": "C09", "title": "Sub-region writes hold exactly the selected voxels; where they lie in the world", "statement": "Writing region start s, count n and reading the file back gives exactly the voxels of the model in the half-open region, shifted by -s, with dimensions n and the model's own translation and scale. The pitch of the file is Scale/max(n), so a voxel keeps its world position along an axis iff its index times the old pitch equals its shifted index times the new pitch: when the largest count is the model's Dim, exactly when s = 0 on that axis.", "quantifier": "every model and region", "why_tests_cant": "all models and regions", "anchors": ["binvox/write.go:Write", "binvox/write.go:encode"]}
{"id": "C10", "title": "A truncated binvox file never yields wrong voxels", "statement": "If a crash leaves only a prefix of a written file, reading it either fails or returns a model with the same header whose voxels are a subset of the original's; a cut inside the header or inside a pair is always detected.", "quantifier": "every written file, every crash point (prefix length)", "why_tests_cant": "every crash point of every file", "anchors": ["binvox/read.go:read", "binvox/write.go:write"]}
{"id": "C11", "title": "Which failed binvox writes are reported", "statement": "Write returns an error exactly when the file cannot be created, or a write of the run data fails, or closing fails. A failure while writing the header is not reported: the file then lacks the header and no reader accepts it.", "quantifier": "every model, every sequence of writer outcomes", "why_tests_cant": "needs every failure point", "anchors": ["binvox/write.go:write"]}
{"id": "C12", "title": "The run-length producer and the writer never deadlock or lose runs", "statement": "With the encoder goroutine feeding the writer through the bounded channel, under every schedule the writer receives every run exactly once, in order, then sees the channel closed, and no reachable state is stuck before that.", "quantifier": "every schedule, every channel capacity >=1, every run sequence", "why_tests_cant": "schedules cannot be enumerated by tests", "anchors": ["binvox/write.go:write", "binvox/write.go:encode", "vshell/write.go:write", "vshell/write.go:encode"]}
{"id": "C13", "title": "vshell.New computes the exact outer shell", "statement": "New(bv) for a model with white voxels returns exactly the voxels that miss at least one of their 26 neighbours, each once, with N having bit 9(x+1)+3(y+1)+(z+1) set iff the neighbour at offset (x,y,z) is present.", "quantifier": "every voxel set, every map order", "why_tests_cant": "all voxel sets and map orders", "anchors": ["vshell/vshell.go:New", "vshell/merge.go:Add", "vshell/merge.go:findNeighbors"]}
{"id": "C14", "title": "Neighbour relations recorded in a shell are symmetric", "statement": "In a shell built by New, if A and B are both shell voxels and B's offset bit is set in A's N then A's opposite-offset bit is set in B's N. diffKeys returns exactly the bit for the offset, and 0 for keys that are equal or not neighbours.", "quantifier": "every voxel set, every pair of keys", "why_tests_cant": "all pairs", "anchors": ["vshell/merge.go:diffKeys", "vshell/merge.go:findNeighbors"]}
{"id": "C15", "title": "Adding to a shell does not depend on map order", "statement": "The set of (voxel, N) entries produced by New, and the dimensions and scale after Add, are the same for every iteration order of the voxel maps.", "quantifier": "all iteration orders", "why_tests_cant": "Go randomises map order", "anchors": ["vshell/merge.go:Add"]}
{"id": "C16", "title": "Incremental merge of disjoint models holds the shell of the union", "statement": "After any history of New and Add with pairwise disjoint models, whatever the map orders and slice capacities, the shell lists no position twice, only voxels of the union and every exposed voxel of the union, and the neighbour maps name only neighbours that exist; when no slice has to grow during Add it is exactly the shell built from the union, with exact neighbour maps and world position. When append reallocates, an old voxel can miss a neighbour and an enclosed voxel can stay listed.", "quantifier": "every history of additions, every map order, every slice-growth policy", "why_tests_cant": "histories, orders and growth policy are unbounded", "anchors": ["vshell/merge.go:Add"]}
{"id": "C17", "title": "A shell lists every position at most once unless a listed voxel is added again", "statement": "After any history of New and Add calls in which no added voxel has the position of a voxel listed in the shell at that moment, no two shell voxels have the same coordinates; adding a listed voxel again duplicates it.", "quantifier": "every history of additions", "why_tests_cant": "histories unbounded", "anchors": ["vshell/merge.go:Add"]}
{"id": "C18", "title": "Merging keeps relative and absolute positions", "statement": "When the translations differ by a whole number of voxels, Add keeps the relative position of old and new voxels exactly; the absolute world position of both is kept iff the offset has no mixed signs.", "quantifier": "all shells, all integer offsets, all additions", "why_tests_cant": "all offsets", "anchors": ["vshell/merge.go:update", "vshell/merge.go:Add"]}
{"id": "C19", "title": "Merging preserves the resolution", "statement": "With positive scale and dimensions, Add leaves VoxelsPerMM unchanged however much the dimensions grow (exact arithmetic), and after Add every new voxel index is below the corresponding dimension.", "quantifier": "all shells and additions", "why_tests_cant": "all sizes and scales", "anchors": ["vshell/merge.go:Add", "vshell/merge.go:update"]}
{"id": "C20", "title": "Add rejects what it cannot merge and leaves the shell alone", "statement": "Add on a nil shell or nil model, or to a shell that has voxels with a model whose voxel density has a different integer part, returns an error and leaves the shell unchanged; Merge stops at the first unreadable file or failed Add with an error and no shell; Merge of no files returns no shell and no error.", "quantifier": "all shells, models and file lists", "why_tests_cant": "all inputs", "anchors": ["vshell/merge.go:Add", "vshell/merge.go:update", "vshell/merge.go:Merge"]}
{"id": "C21", "title": "vshell write/read round trip", "statement": "Writing a whole shell that has voxels and reading it back succeeds and returns the same header; it returns the same (voxel,N) pairs iff all voxels are inside the dimensions, positions are unique, no N is 0 or 0xffffffff, and no value fills 65536 consecutive cells other than the empty cells after the last voxel. An empty shell reads back as an empty 0x0x0 shell.", "quantifier": "every shell", "why_tests_cant": "all shells and run lengths", "anchors": ["vshell/write.go:write", "vshell/write.go:encode", "vshell/read.go:read"]}
{"id": "C22", "title": "Runs in vshell files survive iff shorter than 65536", "statement": "A vsh file written for any region describes each maximal run of equal cells with its length modulo 65536 (16-bit counter); it is faithful iff no maximal run reaches 65536. A run of a multiple of 65536 empty cells disappears and the voxels behind it move.", "quantifier": "every run length", "why_tests_cant": "needs huge grids", "anchors": ["vshell/write.go:encode"]}
{"id": "C23", "title": "The vshell reader accepts exactly the well-formed files", "statement": "read of a vsh stream succeeds iff parameters and header are valid and the data is a sequence of complete records (uint32 value; uint16 count for 0 and 0xffffffff, else a non-zero byte count) that does not overrun the grid, ended by a clean EOF.", "quantifier": "every byte string and parameters", "why_tests_cant": "all byte strings", "anchors": ["vshell/read.go:read"]}
{"id": "C24", "title": "A truncated vsh file never yields wrong voxels", "statement": "Reading a prefix of a written vsh file fails or returns a sub-list of the voxels of the complete file with the same header.", "quantifier": "every file, every crash point", "why_tests_cant": "every crash point", "anchors": ["vshell/read.go:read", "vshell/write.go:write"]}
{"id": "C25", "title": "voxcut removes exactly the cut voxels", "statement": "For white models voxcut returns the base voxels whose position holds no cut voxel; the result is always a subset of the base and never contains a position of the cut. A cut without white voxels changes nothing.", "quantifier": "all base and cut models, all map orders", "why_tests_cant": "all pairs of voxel sets", "anchors": ["cmd/voxcut/voxcut.go:voxcut"]}
{"id": "C26", "title": "voxcut ignores the translations of base and cut", "statement": "The outcome of voxcut depends only on the voxel indices of base and cut, not on translation, scale or dimensions; it is the result positioned by an offset d between the two models iff at every base voxel the cut looks the same with and without d (in particular for d = 0).", "quantifier": "all pairs of models with offsets", "why_tests_cant": "all offsets", "anchors": ["cmd/voxcut/voxcut.go:voxcut"]}
{"id": "C27", "title": "The order of cuts does not matter", "statement": "Cutting with several models one after another gives the same voxels as any other order and as one cut with the union; cutting twice with the same model equals cutting once. (While the intermediate result is not empty: an empty result is a fatal error.)", "quantifier": "all lists of cuts, all permutations", "why_tests_cant": "all lists and permutations", "anchors": ["cmd/voxcut/voxcut.go:main", "cmd/voxcut/voxcut.go:voxcut"]}
{"id": "C28", "title": "The VOX output byte for byte", "statement": "voxcut's VOX writer writes the header, MAIN, SIZE and XYZI chunks with, per voxel, four int32 values. SIZE holds the largest coordinates (not the counts). XYZI declares 4n+4 content bytes while 16n+4 follow and MAIN declares 4n+16 while 16n+40 follow, so the declared sizes are consistent for no model with voxels.", "quantifier": "all voxel sets", "why_tests_cant": "all sizes", "anchors": ["cmd/voxcut/voxcut.go:writeVOX"]}
{"id": "C29", "title": "Voxelize never leaves the requested subregion but to the left", "statement": "Every voxel produced by Voxelize has 0<=y<NY, 0<=z<NZ and x<NX; the documented 0<=x fails: a mesh crossing the left border yields voxels with negative x.", "quantifier": "every mesh, every float behaviour, every schedule", "why_tests_cant": "all meshes", "anchors": ["binvox/voxelize.go:Voxelize", "binvox/voxelize.go:voxelizeZ", "binvox/voxelize.go:rasterizeShellPair", "binvox/voxelize.go:floodFill"]}
{"id": "C30", "title": "Voxelize is the union of its slices under every schedule", "statement": "Whatever the interleaving of the per-slice and per-row goroutines and whatever the map orders, Voxelize stores exactly the union over zi of the voxels VoxelizeZ(zi) would store, and rejects zero dimensions.", "quantifier": "every mesh, every interleaving, every map order", "why_tests_cant": "interleavings", "anchors": ["binvox/voxelize.go:Voxelize", "binvox/voxelize.go:VoxelizeZ", "binvox/voxelize.go:floodFill"]}
{"id": "C31", "title": "Line rasterisation hits both end points without gaps", "statement": "For any two grid points the rasteriser plots a sequence that starts at the first (or last) and ends at the other, each step moves by one in the major axis and by at most one in the minor axis, stays in the bounding box, plots max(|dx|,|dy|)+1 points and deviates from the exact line by at most half a voxel.", "quantifier": "all pairs of integer points (all octants)", "why_tests_cant": "infinitely many segments", "anchors": ["binvox/voxelize.go:firstOctantBressenham", "binvox/voxelize.go:rasterizeShellPair"]}
{"id": "C32", "title": "Plane intersection points lie on the plane and on the edge", "statement": "An intersection reported for a triangle and a z-plane consists of two points at height z, each on an edge of the triangle; a triangle strictly on one side of the plane, or within epsilon of horizontal, yields none. Exact arithmetic.", "quantifier": "all triangles and planes", "why_tests_cant": "continuum", "anchors": ["binvox/voxelize.go:intersectSegment", "binvox/voxelize.go:intersectTriZPlane"]}
{"id": "C33", "title": "The shell of the mesh is always voxelized", "statement": "Every rasterised intersection cell with 0<=y<NY and x<NX is set in the result, and between the row's leftmost and rightmost cell a voxel is filled iff the last decided crossing left of it is an entering one.", "quantifier": "all meshes, rows", "why_tests_cant": "all meshes", "anchors": ["binvox/voxelize.go:floodFill"]}
{"id": "C34", "title": "Dicing covers the model exactly once iff the dimensions are divisible", "statement": "The tiles of diceMesh / stl.New are disjoint, lie on the model grid and cover all newModelDim voxels iff every dimension is a multiple of its division count; otherwise the remainder is dropped. Each tile keeps the model's voxels per mm.", "quantifier": "all dimensions and division counts", "why_tests_cant": "all sizes", "anchors": ["cmd/stldice/stldice.go:diceMesh", "stl2svx/stl/stl.go:New", "stl2svx/agent/agent.go:generateMR"]}
{"id": "C35", "title": "Dicing does not change the voxelization", "statement": "In exact arithmetic, for every mesh and schedule, a tile stores inside its own dimensions exactly the voxels that the undiced model stores in the tile's box, shifted by the tile offset; the same holds for what can be read back from the tile files of a job.", "quantifier": "all meshes, tiles; exact arithmetic (float64: C87)", "why_tests_cant": "all meshes", "anchors": ["cmd/stldice/stldice.go:diceMesh", "binvox/voxelize.go:rasterizeShellPair"]}
{"id": "C36", "title": "Tile file names are distinct", "statement": "Different tile indices of one job give different file names, and the prefix list returned by diceMesh has no duplicates.", "quantifier": "all outPrefix strings, all indices (also beyond two digits)", "why_tests_cant": "all indices", "anchors": ["cmd/stldice/stldice.go:diceMesh"]}
{"id": "C37", "title": "Re-running a dice job is idempotent", "statement": "A second run neither changes nor rewrites any existing tile file, and resumes after a crash between tiles with the missing ones; existing tiles are left out of the returned prefixes, so a second run emits no commands for them. A tile file left behind by a failed write is never repaired.", "quantifier": "all jobs, all crash points between tiles", "why_tests_cant": "histories of runs", "anchors": ["cmd/stldice/stldice.go:diceMesh"]}
{"id": "C38", "title": "voxcut-dice tiles partition the model", "statement": "For size>=1, as long as the loop variables stay within 64 bits, the tiles of voxcut-dice cover every voxel index exactly once and the generated output names are distinct; the model actually read by voxcut for a tile overlaps its neighbour by one layer (see sub-region reads).", "quantifier": "all dimensions and sizes", "why_tests_cant": "all sizes", "anchors": ["cmd/voxcut-dice/voxcut-dice.go:main"]}
{"id": "C39", "title": "binvox-dice boxes tile the bounding box", "statement": "In exact arithmetic the boxes generated for each axis abut, start at the lower and end at the upper corner, and have equal size; every point of the half-open bounding box lies in exactly one of the half-open boxes; the output suffixes are distinct, the first being empty.", "quantifier": "all boxes and factors", "why_tests_cant": "continuum", "anchors": ["cmd/binvox-dice/binvox-dice.go:main"]}
{"id": "C40", "title": "stl.Merge merges every file exactly once with bounded concurrency", "statement": "Under every schedule at most numWorkers files are processed at a time; if no file fails the result has, for some order of the files, all their triangles exactly once; if any fails the result is an error and no mesh; with numWorkers>=1 no state is stuck.", "quantifier": "every file list, numWorkers, schedule", "why_tests_cant": "schedules", "anchors": ["stl/stl.go:Merge"]}
{"id": "C41", "title": "A slice image is white exactly where base minus cuts is solid", "statement": "The image for a slice has a white pixel at (x+1, dim-1-y+1) iff some base voxel was received for (x,y) and no cut voxel was, independent of the order of arrival; the one-pixel border stays black for in-range voxels.", "quantifier": "all multisets of voxels, all arrival orders", "why_tests_cant": "arrival orders", "anchors": ["stl2svx/agent/agent.go:imager", "cmd/stl2svx/stl2svx.go:imager", "cmd/stldice-mr/stldice-mr.go"]}
{"id": "C42", "title": "When an agent survives a slice", "statement": "For every job, schedule and float arithmetic: the agent processing slice z exits iff some tile above the bottom row of tiles has something filled in its own slice z; with a single row of tiles along z it never exits and every slice has a result.", "quantifier": "all jobs", "why_tests_cant": "all jobs", "anchors": ["stl2svx/agent/agent.go:voxelize", "stl2svx/agent/agent.go:generateMR"]}
{"id": "C43", "title": "The master never gives one agent two slices at a time if agents register only while idle", "statement": "In every reachable state each agent works on at most one slice and a working agent is not in the idle map, provided agents register only while not working; an agent that registers again while it works is given a second slice.", "quantifier": "all interleavings of registrations, assignments, completions and failures", "why_tests_cant": "interleavings", "anchors": ["stl2svx/master/master.go:getIdleAgent", "stl2svx/master/master.go:runAgent", "stl2svx/master/master.go:RegisterAgent"]}
{"id": "C44", "title": "What a returned job contains", "statement": "When jobs do not overlap, NewJob returns a readable SVX file that holds exactly the manifest, the two black images and the images of the slices whose SliceJob call succeeded, each once; if no call failed these are images 0..DimZ+1 with what the agents returned. A failed call silently drops its slice and the job still reports success.", "quantifier": "all interleavings and failures", "why_tests_cant": "failure schedules", "anchors": ["stl2svx/master/master.go:NewJob", "stl2svx/master/master.go:runAgent"]}
{"id": "C45", "title": "SVX entry names are distinct and match the manifest iff the prefix is out", "statement": "When jobs do not overlap, the entries of a returned file have pairwise distinct names, whichever slices failed; slice images of different number have different names, none is called manifest.xml; the manifest's slices pattern gives the names stored iff OutPrefix is \"out\".", "quantifier": "all jobs", "why_tests_cant": "all jobs", "anchors": ["stl2svx/master/master.go:writeManifest", "stl2svx/master/master.go:writeBlankImages", "stl2svx/master/master.go:runAgent"]}
{"id": "C46", "title": "Jobs that do not overlap do not mix their slices", "statement": "When no job starts while another runs, each NewJob response contains only entries of its own job. The zip writer is a field shared by all jobs: with overlapping jobs a response can be an error, unreadable, or hold images of the other job.", "quantifier": "all interleavings of two jobs", "why_tests_cant": "interleavings", "anchors": ["stl2svx/master/master.go:NewJob"]}
{"id": "C47", "title": "svx2stl adds exactly the bright pixels", "statement": "scanImage adds to the model exactly the voxels (x,y,z) whose grey value is at least 128, keeping what was there.", "quantifier": "all images", "why_tests_cant": "all images", "anchors": ["cmd/svx2stl/main.go:scanImage"]}
{"id": "C48", "title": "The voxel size svx2stl gives its model", "statement": "The model built from a manifest takes over the grid size and has scale 1000*voxelSize mm, so its pitch is voxelSize divided by the largest grid dimension; this is the manifest's voxel size iff that dimension is 1.", "quantifier": "all manifests", "why_tests_cant": "all sizes", "anchors": ["cmd/svx2stl/main.go:parseManifest", "binvox/binvox.go:VoxelsPerMM"]}
{"id": "C49", "title": "MarchingCubes produces a closed oriented surface", "statement": "For every finite voxel set the triangles of MarchingCubes form a closed, consistently oriented surface: every directed edge is used as often as its reverse; all triangles have vertices at midpoints of voxel pairs of which exactly one is set.", "quantifier": "every finite voxel set, every map order, exact arithmetic (float64: C84)", "why_tests_cant": "all voxel sets", "anchors": ["binvox/marching-cubes.go:MarchingCubes"]}
{"id": "C50", "title": "ManifoldMesh produces a closed surface", "statement": "The triangles of ManifoldMesh form a closed, consistently oriented surface (after cutting some long edges in halves) whenever no two voxels inside the model, and no two outside it, touch only along an edge or at a corner, and the model contains none of five twisted chains of four voxels; more generally whenever every 2x2x2 block is one of 160 configurations. For other models it need not: a single twisted chain already leaves a hole, and already an L of three voxels gives a T-junction (closed only after halving edges).", "quantifier": "every finite voxel set, every map order, exact arithmetic", "why_tests_cant": "all voxel sets", "anchors": ["binvox/manifold.go:ManifoldMesh", "binvox/manifold.go:grid2tris", "binvox/face-templates.go"]}
{"id": "C51", "title": "ManifoldMesh classifies every grid cell correctly", "statement": "For every voxel set and map order the cell at k is visited iff one of its 8 voxels is present and its bit map has bit i set iff its i-th corner voxel is present.", "quantifier": "every voxel set and map order", "why_tests_cant": "all voxel sets", "anchors": ["binvox/manifold.go:ManifoldMesh"]}
{"id": "C52", "title": "TriangleLess is a strict weak order", "statement": "TriangleLess is irreflexive, transitive and its incomparability is transitive when no coordinate is NaN, so sort.Slice with it yields an order that depends only on the triangles' positions.", "quantifier": "all triangle lists", "why_tests_cant": "all lists", "anchors": ["binvox/manifold.go:TriangleLess"]}
{"id": "C53", "title": "What a stldice slave keeps and gives back", "statement": "Different regions have different model files. On a slave started in a directory where no file begins with the line #binvox 1, in every history (concurrent requests, reads and saves that overlap, failed reads and saves, crashes, kills at any point and restarts) every GetSTLMesh and SubSTLMesh is answered with an error, whatever was added before: while requests for one file do not overlap, the file always holds (a beginning of) a single mesh that was sent, and at the moment an AddSTLMesh is answered with success it is exactly the STL file of this mesh, which cannot be read as a model; two AddSTLMesh for one region that overlap can both succeed and leave the beginning of the one with the end of the other, a file that may have no triangles; a GetSTLMesh that overlaps an AddSTLMesh can read the beginning of the old file and the end of the new one, and succeed although neither file is a model, while without overlaps a reader goes on as if it had read the file at one moment; in every history every byte of a file is the old one, zero or the byte at the same place of a mesh that was sent, so meshes never accumulate; and the process dies only of STL data whose vertices do not come in threes. With a readable model on disk GetSTLMesh succeeds without data and without resetting the model, and adding or subtracting a mesh kills the server and empties the model file, or fails. SubSTLMesh never succeeds and GetSTLMesh never returns data on any slave.", "quantifier": "all histories of requests, all initial disks, all interleavings, all crash points", "why_tests_cant": "histories, interleavings and crash points", "anchors": ["server/stldice-slave/stldice-slave.go:AddSTLMesh", "server/stldice-slave/stldice-slave.go:GetSTLMesh", "server/stldice-slave/stldice-slave.go:SubSTLMesh", "server/stldice-slave/stldice-slave.go:filename"]}
{"id": "C54", "title": "STL data is parsed to exactly the triangles in it", "statement": "A binary STL file (any 80-byte header, normals and attributes) and an ASCII STL file with at least one triangle (any name and normals, numbers without blanks, lines up to 65535 bytes, below 7.5 GB) give exactly their triangles in order. In general the triangles of ASCII data are the vertices of its lines of four words beginning with vertex, by threes. Binary parsing is used iff the length is 84+50*count, and then never fails; fewer than 84 bytes are always an error; the parser panics iff the data is not binary, has at least 84 bytes and the number of vertices before the first overlong line is no multiple of three.", "quantifier": "all byte strings, all meshes", "why_tests_cant": "all byte strings", "anchors": ["server/stldice-slave/stldice-slave.go:stlToMesh", "server/stldice-slave/stldice-slave.go:loadSTLA", "server/stldice-slave/stldice-slave.go:loadSTLB"]}
{"id": "C55", "title": "Bounding-box strings are parsed to the six numbers written", "statement": "parseMBB of \"(a,b,c)-(d,e,f)\" (with optional brackets and blanks) returns the box with exactly those corners, provided a bracket or blank stands between c and the minus sign or d contains no minus sign; whatever is accepted has this shape, with exactly the six numbers returned, so every other string is rejected. Without brackets and blanks a negative d is not understood: the string is rejected. The box in the form in which stldice logs it is always read back as the same box.", "quantifier": "all number spellings without commas, blanks or brackets", "why_tests_cant": "all strings", "anchors": ["cmd/stldice/stldice.go:parseMBB", "cmd/binvox-dice/binvox-dice.go:main"]}
{"id": "C56", "title": "voxcut on a tile writes exactly base minus cuts of that tile", "statement": "Run on a tile region, voxcut writes exactly the voxels of the base in the half-open tile that are in none of the cuts; given readable inputs and a writable output it succeeds if some base voxel of the tile survives the cuts.", "quantifier": "all bases, cut lists and tiles", "why_tests_cant": "all inputs", "anchors": ["cmd/voxcut/voxcut.go:main"]}
{"id": "C57", "title": "Which failed vsh writes are reported", "statement": "The vsh writer returns an error exactly when the file cannot be created, a write of a data record fails, or closing fails; failures of the header lines (and of the empty shell's file) are not reported.", "quantifier": "every sequence of write outcomes", "why_tests_cant": "every failure point", "anchors": ["vshell/write.go:Write"]}
{"id": "C58", "title": "The vsh run producer and writer never deadlock or lose runs", "statement": "In every interleaving of the encoder goroutine and the writer, the writer receives exactly the encoder's runs in order, no reachable state is stuck and every execution ends.", "quantifier": "every schedule", "why_tests_cant": "schedules", "anchors": ["vshell/write.go:Write", "vshell/write.go:encode"]}
{"id": "C59", "title": "A failed VOX write is reported", "statement": "writeVOX returns nil iff every write call to the file succeeded.", "quantifier": "every sequence of write outcomes", "why_tests_cant": "every failure point", "anchors": ["cmd/voxcut/voxcut.go:writeVOX"]}
{"id": "C60", "title": "Executing voxcut-dice stops at the first tile in which nothing survives", "statement": "voxcut-dice without -n runs voxcut tile after tile; voxcut exits fatally on a tile in which no base voxel survives the (readable) cuts, so the run ends there with an error and later tiles are not processed, even if they hold voxels. If no tile is like that, all tiles are processed in order.", "quantifier": "every model, cuts, size", "why_tests_cant": "all models", "anchors": ["cmd/voxcut-dice/voxcut-dice.go:main", "cmd/voxcut/voxcut.go:main"]}
{"id": "C61", "title": "A dry-run command line stands for the same arguments", "statement": "The line printed by voxcut-dice -n, split at blanks, gives back the argument vector that would have been executed iff no argument (prefix or file name) contains a blank.", "quantifier": "all prefixes and file names", "why_tests_cant": "all strings", "anchors": ["cmd/voxcut-dice/voxcut-dice.go:main"]}
{"id": "C62", "title": "When the merge commands refuse to overwrite their output", "statement": "merge-stl exits without merging iff its output file is among the matched inputs and -f was not given, and otherwise merges exactly the matched files except the output. merge-binvox has the same check, but compares a .vsh name with .binvox names, so it never refuses and overwrites an existing output.", "quantifier": "all directory contents", "why_tests_cant": "all file lists", "anchors": ["cmd/merge-stl/merge-stl.go:main", "cmd/merge-binvox/merge-binvox.go:main"]}
{"id": "C63", "title": "A triangle with its second vertex exactly on the slice plane", "statement": "When V2 of a triangle lies exactly in the plane and the edges at V2 are not horizontal, the reported segment degenerates to the point V2, also if V1 and V3 lie on different sides of the plane (the intersection with the edge V3V1 is then lost).", "quantifier": "all such triangles, exact arithmetic", "why_tests_cant": "continuum", "anchors": ["binvox/voxelize.go:intersectTriZPlane"]}
{"id": "C64", "title": "What stldice-mr draws", "statement": "The image stldice-mr assembles for one slice is white exactly where some tile of the base, in tile-local coordinates, and no tile of a cut fills the cell: all tiles are superimposed at the origin. With a single tile this is the slice of the undiced model.", "quantifier": "every set of tiles, every order of emits", "why_tests_cant": "all models and schedules", "anchors": ["cmd/stldice-mr/stldice-mr.go:main"]}
{"id": "C65", "title": "Which slice jobs an agent can do", "statement": "For every job: the agent exits iff some file of the job, base or cut, fails its own size check, or a tile above the bottom row has something filled in its slice; with one row of tiles only the size checks matter, and if all pass the slice image is exactly base minus cuts. A cut thinner than a voxel thus ends the agent on every slice.", "quantifier": "every job", "why_tests_cant": "all models", "anchors": ["stl2svx/agent/agent.go:generateMR", "stl2svx/stl/stl.go:New"]}
{"id": "C66", "title": "A job finishes unless every agent is lost", "statement": "Whatever calls fail, from every reachable state the master makes only a bounded number of steps until an agent registers or a job comes in, and when it can make no more, every job has returned or is starved (a slice is left and no agent is idle or working). A starved job never returns unless an agent registers, and such states are reachable: failed agents are not put back.", "quantifier": "every history of registrations, replies and failures", "why_tests_cant": "all histories", "anchors": ["stl2svx/master/master.go:NewJob", "stl2svx/master/master.go:runAgent", "stl2svx/master/master.go:getIdleAgent"]}
{"id": "C67", "title": "When the manifest's grid describes the images", "statement": "The manifest's gridSizeX/Y/Z are the width, number and height of the images (always dim+2 square, DimZ+2 of them; slicesOrientation Y) iff there is one row of tiles along z and the extents along x and y round up to dim voxels; voxelSize is the pitch in metres. The manifest's origin (written in mm) puts every voxel one pitch above its true lower corner in x and z and mirrored in y.", "quantifier": "every bounding box, dim and tile counts, exact arithmetic", "why_tests_cant": "all models", "anchors": ["stl2svx/master/master.go:writeManifest", "stl2svx/master/master.go:writeBlankImages", "stl2svx/agent/agent.go:imager", "cmd/stl2svx/stl2svx.go:generateMR"]}
{"id": "C68", "title": "When the stl2svx command writes a complete archive", "statement": "cmd/stl2svx writes manifest.xml, complete and first, followed by all images, iff its manifest goroutine made all its calls before main's first one; it panics exactly when main comes first, and always when the output cannot be created. In the remaining orders an image comes first or the manifest's contents are lost.", "quantifier": "every interleaving of the calls of the two goroutines", "why_tests_cant": "schedules", "anchors": ["cmd/stl2svx/stl2svx.go:main", "cmd/stl2svx/stl2svx.go:master", "cmd/stl2svx/stl2svx.go:generateMR", "cmd/stl2svx/stl2svx.go:writeManifest"]}
{"id": "C69", "title": "What svx2stl reads back from stl2svx", "statement": "svx2stl applied to a file of stl2svx with n <= 9998 slices, images in any order behind the manifest, gives exactly the white pixels as voxels: the printed model shifted by one voxel and mirrored along y. With 9999 slices or more the file cannot be read, because the pattern %04d reads at most four digits.", "quantifier": "every stack of images, every order of the entries behind the manifest", "why_tests_cant": "all models", "anchors": ["cmd/svx2stl/main.go:read", "cmd/svx2stl/main.go:scanImage", "stl2svx/agent/agent.go:imager", "stl2svx/master/master.go:runAgent"]}
{"id": "C70", "title": "ManifoldMesh encloses the volume of the voxels", "statement": "For a model as in C50 (well-composed, no twisted chain) the signed volume enclosed by the mesh of ManifoldMesh is the number of voxels times the volume of one voxel, so the mesh is oriented outwards and no part is counted twice.", "quantifier": "every finite voxel set, scale and translation, every map order, exact arithmetic", "why_tests_cant": "all voxel sets", "anchors": ["binvox/manifold.go:ManifoldMesh", "binvox/manifold.go:grid2tris", "binvox/face-templates.go"]}
{"id": "C71", "title": "ManifoldMesh is the skin of the voxels", "statement": "For a model as in C50 every triangle of ManifoldMesh is parallel to an axis plane, lies on the common face of a voxel in the model and a neighbour outside it, and faces outwards; the total area is the area of all such faces.", "quantifier": "every finite voxel set, positive scale and translation, every map order, exact arithmetic", "why_tests_cant": "all voxel sets", "anchors": ["binvox/manifold.go:ManifoldMesh", "binvox/manifold.go:grid2tris", "binvox/face-templates.go"]}
{"id": "C72", "title": "manifold-mesh and marching-cubes from file to file", "statement": "Each command changes no file but its second argument, and none unless it gets two arguments and can read the first; when it reports success the second file is a binary STL file that parses as the float32 rounding of a mesh of the model in the first: closed and with the corners of C49 for marching-cubes, closed, on the skin and of the right volume for manifold-mesh on the models of C50. Rounding never opens a closed surface. A failing save is reported.", "quantifier": "every pair of arguments, file content, map order, float32 rounding and outcome of the file system", "why_tests_cant": "all files, map orders and failures", "anchors": ["cmd/manifold-mesh/manifold-mesh.go:main", "cmd/marching-cubes/marching-cubes.go:main", "binvox/read.go:Read"]}
{"id": "C73", "title": "ToMesh puts the voxel mesh in its place", "statement": "ToMesh hands exactly the white and coloured voxels to fauxgl's NewVoxelMesh and moves its result so that the unit cube around each index becomes the cube that voxel takes in the model. If the library meshes unit cubes correctly, the result is, for every map order, a closed mesh (corners inside edges allowed) of the skin of the voxels enclosing exactly their volume.", "quantifier": "every voxel set, scale and translation, every map order, exact arithmetic", "why_tests_cant": "all voxel sets", "anchors": ["binvox/mesh.go:ToMesh"]}
{"id": "C74", "title": "What the outputs of one voxcut run hold", "statement": "voxcut changes no file but its outputs, and none if the base cannot be read or nothing is left. Its STL and VOX outputs hold the base voxels in the closed box [s, s+c] that no cut file has: neighbouring tiles overlap by one layer in them, while the binvox output leaves that layer out. The outputs are written one after the other and nothing is written after one failed. After success every requested output is there, at the place of the base.", "quantifier": "every region, base, list of cut files, map order and file system outcome", "why_tests_cant": "all files, map orders and failures", "anchors": ["cmd/voxcut/voxcut.go:main", "binvox/read.go:Read", "binvox/write.go:Write", "binvox/manifold.go:ManifoldMesh"]}
{"id": "C75", "title": "merge-stl from files to file", "statement": "merge-stl changes no file but prefix.stl; it fails and changes nothing if that exists without -f or some other matching file cannot be loaded. On success prefix.stl parses as all triangles of all other matching files, each once, rounded to float32, in some order. If nothing else matches it never succeeds: it panics and leaves an empty prefix.stl.", "quantifier": "every set of files, number of workers, schedule and file system outcome", "why_tests_cant": "schedules and failures", "anchors": ["cmd/merge-stl/merge-stl.go:main", "stl/stl.go:Merge"]}
{"id": "C76", "title": "merge-binvox from files to file", "statement": "merge-binvox changes no file but prefix.vsh, and none if an input cannot be read; it panics, leaving an empty prefix.vsh, exactly when nothing matches. For models of one resolution on one lattice, disjoint, with comparable origins, the file it writes reads back as exactly the exposed voxels of the union that have a neighbour, with exact neighbour maps, at their exact place; exposed voxels without any neighbour are lost.", "quantifier": "every list of files, map order and file system outcome; exact arithmetic for positions", "why_tests_cant": "all files, map orders and failures", "anchors": ["cmd/merge-binvox/merge-binvox.go:main", "vshell/merge.go:Merge", "vshell/write.go:Write", "vshell/read.go:Read"]}
{"id": "C77", "title": "The script that stldice prints", "statement": "stldice prints nothing unless every argument was diced without an error; a number of tiles that is zero or does not divide the dimension, a first argument that cannot be loaded or one with a side shorter than one voxel per tile makes it fail without changing anything. Then it prints, after the line for bash, exactly one voxcut line for each tile for which this run wrote the file of some argument, in the order of the bytes of the names, cutting the later arguments from the first, and a final merge-stl line iff there is more than one tile. It never changes a file that was there before; run again in the directory a successful run has left it changes nothing and prints a script without a command.", "quantifier": "every flag, argument list, directory content, map order and file system outcome", "why_tests_cant": "all inputs, map orders and failures", "anchors": ["cmd/stldice/stldice.go:main", "cmd/stldice/stldice.go:diceMesh"]}
{"id": "C78", "title": "stldice followed by its script", "statement": "If the arguments have distinct plain names and can be loaded, nothing is left over from earlier jobs and all files can be written, then after stldice and its script every tile's STL file is a closed mesh of exactly those voxels of the tile that the undiced first model has and no later model has; a tile without an STL file has none; the volumes of the tiles add up to the volume of what is left of the whole; with more than one tile the merged file has the triangles of all tile files, each once, rounded to float32; other files are unchanged. stldice and the script do run through.", "quantifier": "every set of meshes, box, dimension, number of tiles, map order and schedule; exact arithmetic", "why_tests_cant": "all meshes, tilings, map orders and schedules", "anchors": ["cmd/stldice/stldice.go:main", "cmd/stldice/stldice.go:diceMesh", "cmd/voxcut/voxcut.go:main", "cmd/merge-stl/merge-stl.go:main", "binvox/mesh.go:ToMesh", "binvox/voxelize.go:Voxelize"]}
{"id": "C79", "title": "voxcut-dice from its command line to the tile files", "statement": "For a base and cuts of one grid, and loop variables that stay within 64 bits, voxcut-dice changes only the tiles' outputs. Either it succeeds and each tile of size voxels has all its outputs, which show exactly the voxels of the tile (with one more layer) that the base has and no cut has; or it stops at the first tile (in the order z, y, x) for which a file cannot be written or nothing is left, with all earlier tiles complete and all later ones untouched. It can succeed if in every tile something is left. A dry run changes nothing and prints exactly the commands in that order; voxcut understands each command as the box and the names meant. A size of zero never ends well. A first file whose name begins with a dash makes no tile at all, yet success is reported if the name is -h.", "quantifier": "every base, list of cuts, size, prefixes, map order and file system outcome", "why_tests_cant": "all files, sizes, map orders and failures", "anchors": ["cmd/voxcut-dice/voxcut-dice.go:main", "cmd/voxcut/voxcut.go:main"]}
{"id": "C80", "title": "Command lines", "statement": "stldice, voxcut, voxcut-dice, merge-stl and merge-binvox understand exactly the command lines that are a list of settings of declared flags, written -n=v, -n v or (boolean) -n with one or two dashes and with values of the flag's type, followed by files, perhaps after --; a flag has the value set last, or its default. What follows the first file is a file, also if it looks like an option. Each line of the script stldice prints is understood by voxcut and merge-stl as meant, so that C78 holds of the two command lines stldice ARGS and bash; but if the base is the file .stl every voxcut line fails.", "quantifier": "every list of arguments, every job", "why_tests_cant": "all command lines", "anchors": ["cmd/stldice/stldice.go:main", "cmd/voxcut/voxcut.go:main", "cmd/voxcut-dice/voxcut-dice.go:main", "cmd/merge-stl/merge-stl.go:main", "cmd/merge-binvox/merge-binvox.go:main"]}
{"id": "C81", "title": "svx2stl from its command line to the STL files", "statement": "svx2stl changes no file but the outputs, which are named by its arguments with .svx replaced by .stl (or .stl added); two arguments have the same output only if one is the other with .svx behind it. It goes through the arguments in order and stops at the first that cannot be read or saved, leaving the later ones untouched; it succeeds iff none is such. If no output is an argument, each output is then the binary STL file of a mesh of what its archive holds. For an archive stl2svx made, that mesh is closed and shows the model mirrored at the y-z plane, not the model.", "quantifier": "every list of arguments, file content, map order and file system outcome; exact arithmetic for positions", "why_tests_cant": "all files, map orders and failures", "anchors": ["cmd/svx2stl/main.go:main", "cmd/svx2stl/main.go:read"]}
{"id": "C82", "title": "binvox-dice and its script", "statement": "binvox-dice understands exactly the command lines of C80 with its flags; it prints nothing and fails unless it has a file and a box it can read. What it prints is, byte for byte and for names without a percent sign, a comment and for every box, x fastest, one binvox line per file with the bounds of the box and one voxcut line. When the script is run with an external binvox that numbers its outputs, on plain names none of which is another with a number behind it, with no binvox files left over and a file made for every box: the voxcut line of box n reads the files of box n, and the n-th STL file is the mesh of what is left of it. With one file left over, every box is made from the file of the box before; after a box for which binvox made nothing, no later box finds its file; with the names s.stl and s_1.stl box 1 is cut from the wrong model; a %% in a name becomes a %. The script always runs through.", "quantifier": "every command line, box, factor, list of names, content of the directory and behaviour of the tool on each file and box", "why_tests_cant": "all names, factors, boxes and directories", "anchors": ["cmd/binvox-dice/binvox-dice.go:main", "cmd/voxcut/voxcut.go:main"]}
{"id": "C83", "title": "float64 and float32 as the code computes with them", "statement": "Rounding takes every number to the nearest float64 (float32), on a tie to the one with the even significand; this determines it. It is monotone; it changes a normal number by at most 2^-53 of it, and a sum of two float64 never suffers from underflow; the difference of two float64 within a factor of two is exact. Writing a float32 to its 32 bits and reading it back gives the same number.", "quantifier": "every rational number, every pair of float64", "why_tests_cant": "all numbers", "anchors": ["binvox/binvox.go:VoxelsPerMM", "vshell/merge.go:Add"]}
{"id": "C84", "title": "MarchingCubes in float64", "statement": "With float64 arithmetic the triangles are those of exact arithmetic with each corner moved by a few units in the last place. They form a closed surface, in memory and in the STL file, whenever at every crossing of the surface with the grid half the step between the two voxel centres is a float64, which can fail only next to a coordinate plane; then each corner is the float64 nearest to the middle. Without that it need not be closed: a single voxel at the origin with three voxels per millimetre has a crack, and there are models for which the crack is in the STL file too.", "quantifier": "every finite voxel set, position, resolution between 2^-900 and 2^900 and map order; float64 arithmetic", "why_tests_cant": "all models and resolutions", "anchors": ["binvox/marching-cubes.go:MarchingCubes", "binvox/binvox.go:VoxelsPerMM"]}
{"id": "C85", "title": "ManifoldMesh in float64", "statement": "With float64 arithmetic ManifoldMesh gives the mesh of exact arithmetic with its points moved by a few units in the last place, every point to the same place wherever it occurs; so no new cracks appear: where the exact mesh is closed, so is the float64 mesh, and for models of C50 it is the moved image of a closed surface of the volume of the voxels.", "quantifier": "every finite voxel set, position, resolution between 2^-900 and 2^900 and map order; float64 arithmetic", "why_tests_cant": "all models and resolutions", "anchors": ["binvox/manifold.go:ManifoldMesh", "binvox/manifold.go:grid2tris"]}
{"id": "C86", "title": "Merging models in float64", "statement": "With float64 arithmetic Add moves a model by the exact number of voxels when the translations differ by a float64 that is a whole number of voxels, and otherwise by less than one voxel and a few last bits too much or too little. Each Add changes the resolution of the shell by at most 2^-49 of it, so merging n models succeeds whenever their resolutions, cut off, agree and the first keeps a distance of n*2^-48 of itself from the whole numbers around it. At whole numbers it does not: three models with 1 voxel per millimetre at whole millimetres, which exact arithmetic merges, make Merge fail, for every map order; and a voxel at 0.3 mm is put on top of one at 0.2 mm, not beside it, at 10 voxels per millimetre.", "quantifier": "every list of fewer than 2^40 models with resolutions between 2^-398 and 2^398, every map order and slice capacity; float64 arithmetic", "why_tests_cant": "all models, positions and schedules", "anchors": ["vshell/merge.go:Add", "vshell/merge.go:Merge"]}
{"id": "C87", "title": "Voxelizing and dicing in float64", "statement": "For a mesh in general position to the grid (no slice within a few last bits of a vertex, no cut point within a few last bits of a border between voxels, for a bound on the coordinates) voxelizing in float64 gives exactly the voxels of exact arithmetic, and dicing in float64 stores in every tile exactly the voxels the undiced job stores in the tile's box. Not in general: with 22 voxels along 15 mm a box of 7.5 x 15 x 15 mm diced into two halves of 11 voxels loses a line of voxels the undiced job stores. The widest side gets the requested number of voxels or one more; 29 voxels along 7 mm gives 30.", "quantifier": "every mesh in general position, region, job, tile and schedule; float64 arithmetic", "why_tests_cant": "all meshes, boxes and schedules", "anchors": ["binvox/voxelize.go:Voxelize", "cmd/stldice/stldice.go:diceMesh"]}
{"id": "C88", "title": "The boxes of binvox-dice in float64", "statement": "In float64 the bounds binvox-dice prints for the boxes start exactly at the lower bound of the model, increase, and cut what lies between the first and the last bound into boxes without gaps or overlaps. The last bound is the upper bound of the model if the length of the model is a float64, and is otherwise off by at most (|lo|+|hi|)/2^51; every bound is that of exact arithmetic up to 2^-49 of the largest coordinate. The last bound can fall short: for a model from -5 to -1.7 mm the boxes, whatever their number, miss the point -1.7000000000000002.", "quantifier": "every lower and upper bound, factor up to 2^53 and box; float64 arithmetic", "why_tests_cant": "all bounds and factors", "anchors": ["cmd/binvox-dice/binvox-dice.go:main"]}
{"id": "C89", "title": "Float64 numbers as text", "statement": "What is printed for a float64 with %g or %v is a decimal number of at most 17 digits that is read back as the same number; no decimal with fewer digits is, and none with as many digits is nearer. Of the texts made of a sign, digits, a point and an exponent ParseFloat reads exactly the decimal numbers, as the nearest float64. So headers, the -mbb box and the bounds in scripts carry float64 numbers without loss: a binvox file is read back with exactly the numbers and voxels written, the box stldice logs is read back exactly, and for a mesh in general position the tile files of a diced job hold exactly the voxels of the undiced job, all in float64.", "quantifier": "every finite float64, every text, every model and job; float64 arithmetic", "why_tests_cant": "all numbers and texts", "anchors": ["binvox/write.go:headerFMT", "binvox/read.go:read", "cmd/stldice/stldice.go:parseMBB"]}
{"id": "C90", "title": "A network stl2svx job from the client's command line to its file", "statement": "stl2svx-client sends the master the triangles of exactly the files named in -stl (split at every comma), in order, with the numbers of its flags; it changes no file but <prefix>-<dim>-<nx>-<ny>-<nz>.svx, a name that tells prefix and numbers apart; if a file is unreadable or the call fails, as it always may, nothing changes; if it succeeds the file holds the answer. From a master that runs one job at a time that answer is the manifest of this request, two black images and images of slices of this request, each as an agent draws it, whatever else agents and clients do; if no agent failed every slice is there, and svx2stl opens the file and finds exactly the voxels of the base model without the cuts (exact arithmetic, -nz 1, prefix out, fewer than 9999 slices). With any other plain prefix svx2stl refuses the file. A request that divides by zero ends the master. Every request that can be divided can be answered by one agent.", "quantifier": "every command line, disk, request, history of the master, schedule and failure of agents", "why_tests_cant": "all command lines, files and interleavings", "anchors": ["stl2svx/stl2svx-client/stl2svx-client.go:main", "stl2svx/stl2svx-client/stl2svx-client.go:loadSTL", "stl2svx/stl/stl.go:New", "stl2svx/master/master.go:NewJob", "cmd/svx2stl/svx2stl.go:main"]}
{"id": "C91", "title": "The address an agent registers", "statement": "An agent registers the first IPv4 address with a mask outside 127.0.0.0/8, in the order of the interfaces whose addresses can be listed, followed by a colon and the port it listens on (the text after the last colon of its listening address). If there is no such address it registers the last address of any kind, or none: one that other hosts cannot use.", "quantifier": "every list of interfaces and addresses, every listening address", "why_tests_cant": "all hosts", "anchors": ["stl2svx/stl2svx-server/stl2svx-server.go:getAddress"]}
{"id": "C92", "title": "stl2svx from its command line to its file", "statement": "stl2svx changes no file but out<dim>.svx, however it ends; a first file that is unreadable or cannot be divided as asked ends it with nothing changed and no success; if any file of -stl is unreadable it does not report success. If the manifest was written before the first image was begun and nothing went wrong with the file, out<dim>.svx holds the manifest, a black image, the images of all slices in order and a black image; with -nz 1 (exact arithmetic) svx2stl then finds exactly the voxels of the first file without the others, and the archive has the same entries as that of the same job on the network. If the first image was begun earlier, the program panics or svx2stl refuses the file. Without -stl it panics.", "quantifier": "every command line, disk, order of the calls of the two goroutines, schedule of the voxelization and failure to write", "why_tests_cant": "all inputs and interleavings", "anchors": ["cmd/stl2svx/stl2svx.go:main", "cmd/stl2svx/stl2svx.go:master", "cmd/stl2svx/stl2svx.go:generateMR", "cmd/stl2svx/stl2svx.go:writeManifest"]}
{"id": "C93", "title": "stldice-mr from its command line to its files", "statement": "However stldice-mr ends, it changes no file but out-<dim>-<nx>-<ny>-<nz>-<z>.png, and these names tell all five numbers. Without -stl, or if its first file cannot be read or divided as asked, nothing is changed and it does not report success; it reports success only if all files could be read. A run that could write all its images leaves one for every slice that some tile of some file fills a cell of, showing the tiles of the base, minus those of the cuts, drawn over one another at the origin (with a single tile in exact arithmetic: the slice of the first file without the others); the image of any other slice is not touched, so that of an earlier run stays.", "quantifier": "every command line, disk, set of files, schedule of the voxelization and order in which voxels and groups arrive", "why_tests_cant": "all inputs and interleavings", "anchors": ["cmd/stldice-mr/stldice-mr.go:main", "cmd/stldice-mr/stldice-mr.go:generateMR", "cmd/stldice-mr/stldice-mr.go:voxelize", "cmd/stldice-mr/stldice-mr.go:imager"]}
{"id": "C94", "title": "voxcut -ostl and ToMesh in float64, and in the STL file", "statement": "In float64, ToMesh and the STL file of voxcut -ostl (without -manifold) stay closed: moving the mesh of unit cubes into place and rounding it to float32 move each axis for itself and keep the order of numbers on it, so a corner inside an axis-parallel edge stays inside it and no crack opens. Triangle by triangle and up to the last few bits the mesh is an exact closed mesh of the skin of the voxels in their place, which encloses their volume - if the library meshes unit cubes correctly, with corners inside edges only where these run along an axis.", "quantifier": "every model with a resolution between 2^-900 and 2^900 voxels per mm, every voxel set, cut and region, every map order, float64 (coordinates below 2^127 for the file)", "why_tests_cant": "all inputs and map orders; rounding errors", "anchors": ["binvox/mesh.go:ToMesh", "cmd/voxcut/voxcut.go:main"]}
{"id": "C95", "title": "stldice followed by its script, in float64", "statement": "In float64, on a fresh directory and with meshes in general position to the grid (no edge or corner within rounding distance of where voxelization decides), stldice and then running the script it prints keep the voxels of the undiced job: every tile's STL file holds a closed mesh which is, up to the last few bits of each number, an exact closed mesh of the skin of the voxels the undiced job leaves in that tile (base without cuts) and has their volume; a tile without a file has nothing left; the exact volumes of all tiles add up to the voxels of the undiced job; tile positions are within rounding distance of their place in the grid; and the merged file, written iff two tiles have voxel files, holds the triangles of all tile files, rounded to float32, and is closed too. Such a job and script run through.", "quantifier": "every base mesh and list of cut meshes in general position, every box, -dim and -nx/-ny/-nz (grid up to 2^50 voxels an axis), every schedule, map order and number of workers of merge-stl, float64", "why_tests_cant": "all inputs, schedules and map orders across four programs; rounding errors", "anchors": ["cmd/stldice/stldice.go:main", "cmd/stldice/stldice.go:diceMesh", "binvox/voxelize.go:Voxelize", "binvox/mesh.go:ToMesh", "cmd/voxcut/voxcut.go:main", "cmd/merge-stl/merge-stl.go:main"]}
{"id": "C96", "title": "Values of integer and boolean flags", "statement": "A flag of type int (-dim, -nx, -sx, -size, -num, ...) accepts exactly the integer literals of Go that fit in 64 bits and takes the value they denote: decimal; octal after 0 or 0o; hexadecimal after 0x; binary after 0b; single underscores between digits or between prefix and digits; an optional sign. A boolean flag accepts exactly 1 t T true True TRUE and 0 f F false False FALSE. Every other text ends the command. A text has one value at most. The numbers of the dim line of a voxel file are plain decimal digits below 2^63, and nothing else is accepted.", "quantifier": "every text given as a value, every integer", "why_tests_cant": "infinitely many texts; prefixes, signs, underscores and limits interact", "anchors": ["cmd/stldice/stldice.go:main", "cmd/voxcut/voxcut.go:main", "cmd/voxcut-dice/voxcut-dice.go:main", "cmd/merge-stl/merge-stl.go:main", "binvox/read.go:Read"]}
{"id": "C97", "title": "The voxels of the surface lie on the surface", "statement": "For every mesh: Voxelize stores no voxel that is not within one voxel side (in x and in y, in the plane of the slice) of a point of the surface, unless its row has such voxels both left and right of it. And it misses no part of the surface: in a slice that cuts the mesh cleanly (through no corner, and through no edge rising less than 1e-9 mm) each point of the surface at the height of the slice is within one and a half voxel sides of a stored voxel, or of a voxel outside of the region.", "quantifier": "every mesh, region, voxel and point of the surface, every schedule; exact arithmetic", "why_tests_cant": "all meshes and points; the octants of the line algorithm and the rounding to cells interact", "anchors": ["binvox/voxelize.go:Voxelize", "binvox/voxelize.go:rasterizeShellPair", "binvox/voxelize.go:firstOctantBressenham", "binvox/voxelize.go:intersectTriZPlane"]}
{"id": "C98", "title": "Convex solids are voxelized to within one voxel", "statement": "For a closed, connected convex mesh whose stored normals point to the right side, in every slice that cuts it cleanly: a voxel of the region is stored if all points of the slice within one voxel side of its middle belong to the solid, and only if some point of the solid is within one voxel side of its middle. In float64 too, if the mesh is in general position to the grid.", "quantifier": "every convex mesh, whatever its triangulation and the order of triangles and corners, every region, slice and voxel, every schedule; exact arithmetic and float64", "why_tests_cant": "all meshes; entries and exits of a row are decided by counting first touches, which is right only for some global reason", "anchors": ["binvox/voxelize.go:Voxelize", "binvox/voxelize.go:floodFill", "binvox/voxelize.go:rasterizeShellPair"]}
{"id": "C99", "title": "Inside is consistent along rows, not across rows", "statement": "For every mesh, of two voxels next to each other in x with no point of the surface within one voxel side of either middle, both are stored or neither is. Across rows this is false: there are closed meshes with right normals, cut cleanly by every slice, of which a voxel at least three voxels away from the surface is not stored although it is inside and its neighbours in y are stored (a slanted notch leaves a hole through the solid), or is stored although it is outside and its neighbours in y are not (a slanted wedge leaves a streak up to the next wall). Where two walls meet in one cell, the triangles seen first there cancel, and one that begins in the next cell decides for the whole rest of the row.", "quantifier": "every mesh, region, voxel and schedule for the first half; witnesses in float64 for the second", "why_tests_cant": "the first half is about all meshes; the second needs meshes nobody would write a test with", "anchors": ["binvox/voxelize.go:floodFill", "binvox/voxelize.go:Voxelize"]}
{"id": "C100", "title": "Printed voxels, cells and models can be read back", "statement": "The text of a shell voxel names exactly its neighbours, each once, after their bit map in hexadecimal; if there are more than 13 it names exactly those that are missing instead. Different voxels and different bit maps have different texts. The text of a grid cell of ManifoldMesh lists exactly its solid and its empty corners. Models and shells with the same summary have the same size, translation, scale and number of voxels. For bit maps with the bit of the voxel itself set (which only a file can bring) the names after the number need not be its value.", "quantifier": "every set of neighbours, every 32 bit map, every cell, every model and shell; float64 text", "why_tests_cant": "2 to the 32 bit maps, all models", "anchors": ["vshell/vshell.go:String", "binvox/binvox.go:String", "binvox/manifold.go:String"]}
{"id": "C101", "title": "When a server becomes an agent", "statement": "A server process started with -master registers exactly once at that master, after it has begun to listen and before it serves slices, with the address of C91. It serves slices iff it can listen and list its interfaces, some attempt to dial the master succeeds and the master accepts the registration. It dials without end until an attempt succeeds, but a registration that is refused is not tried again: the process ends. A process started without -master serves jobs as soon as it listens and never registers.", "quantifier": "every outcome of listening, of each attempt to dial and of the registration; every moment of the run", "why_tests_cant": "unbounded retries; all outcomes of the network", "anchors": ["stl2svx/agent/agent.go:New", "stl2svx/stl2svx-server/stl2svx-server.go:main", "stl2svx/stl2svx-server/stl2svx-server.go:getAddress"]}
{"id": "C102", "title": "stl2svx in float64", "statement": "For a job with one layer along z whose files are all in general position to its grid (no edge grazes a border between cells, a slice height or the limit for flat edges), the slice images computed in float64, tile by tile and under every schedule, show exactly the cells that exact arithmetic fills in the undiced grid with the first file and with no other file. What svx2stl reads from the archive of such a job is exactly these cells, one voxel away and mirrored along y, even when rounding gives the model one voxel more than asked for; and the archives made by the network and by one machine have the same entries.", "quantifier": "every job with float64 numbers in general position, every schedule, order of arrival and map order", "why_tests_cant": "unbounded meshes and grids, rounding of every operation", "anchors": ["stl2svx/agent/agent.go:SliceJob", "stl2svx/master/master.go:NewJob", "cmd/stl2svx/stl2svx.go:main", "cmd/svx2stl/main.go:main", "binvox/voxelize.go:Voxelize"]}
{"id": "C103", "title": "Voxelize in float64 is accurate for every mesh", "statement": "With float64 arithmetic and no condition on the position of the mesh (triangles may lie on borders between voxels or graze slices): for a mesh and region within R of the origin, a stored voxel is within one voxel side and 2^-43 R of a point of the surface, unless its row has such voxels both left and right of it; in either case it is that close to a point of the hull of the mesh. Of two neighbours in a row without a point of the surface that near, both are stored or neither. And each slice has a height within 2^-46 R of its middle such that, if no corner is within 2^-44 R of this height and no edge crossing it rises less than 1e-9 mm, each point of the surface at this height is within one and a half voxel sides and 2^-43 R of a stored voxel, or of a voxel outside of the region.", "quantifier": "every float64 mesh, region, voxel and point of the surface, every schedule", "why_tests_cant": "unbounded meshes, rounding of every operation", "anchors": ["binvox/voxelize.go:Voxelize", "binvox/voxelize.go:intersectSegment", "binvox/voxelize.go:rasterizeShellPair"]}
{"id": "C104", "title": "Voxelize in float64 fills convex solids whatever their position", "statement": "With float64 arithmetic, 2^-43 R less than half a voxel side, and a convex mesh whose normals agree with its faces (none with an x within rounding of the limit 1e-9), within R of the origin, with faces and edges at any position relative to the grid: in a slice whose middle is at least 2^-43 R away from every corner and in which no crossing edge rises less than 1e-9 mm, a voxel of the region is stored if the solid contains every point within one voxel side and 2^-43 R of its middle in the slice. Conversely a stored voxel always has a point of the solid within one voxel side and 2^-43 R of it.", "quantifier": "every convex float64 mesh, region and voxel, every schedule", "why_tests_cant": "unbounded meshes, rounding of every operation", "anchors": ["binvox/voxelize.go:Voxelize", "binvox/voxelize.go:intersectSegment", "binvox/voxelize.go:rasterizeShellPair"]}
{"id": "C105", "title": "Arguments that are no command line", "statement": "Every command (stldice, stldice-mr, merge-stl, merge-binvox, voxcut, voxcut-dice, binvox-dice, svx2stl, stl2svx, stl2svx-client, manifold-mesh, marching-cubes), given arguments that are not a list of its settings followed by files, writes no file and nothing on standard output. It then ends as a success exactly if the arguments are valid settings followed by -h or -help (one or two dashes, =value allowed), and otherwise as a failure.", "quantifier": "every list of arguments, every state of the disk", "why_tests_cant": "unbounded lists of arguments", "anchors": ["cmd/stldice/stldice.go:main", "cmd/merge-stl/merge-stl.go:main", "cmd/merge-binvox/merge-binvox.go:main", "cmd/voxcut/voxcut.go:main", "cmd/voxcut-dice/voxcut-dice.go:main", "cmd/binvox-dice/binvox-dice.go:main", "cmd/svx2stl/main.go:main", "cmd/stl2svx/stl2svx.go:main", "cmd/stldice-mr/stldice-mr.go:main", "cmd/manifold-mesh/manifold-mesh.go:main", "cmd/marching-cubes/marching-cubes.go:main", "stl2svx/stl2svx-client/stl2svx-client.go:main"]}
{"id": "C106", "title": "Dicing in float64 is accurate whatever the position of the mesh", "statement": "A job diced in float64 into any numbers of parts, with mesh and box within R of the origin and no condition on where the mesh lies on the grid (faces may lie on borders between voxels and tiles): each voxel a tile stores inside its own dimensions has a point of the solid within one voxel side and 2^-43 R on the grid of the undiced job; and, if 2^-43 R is less than half a voxel side, for a convex mesh whose normals agree with its faces (none with an x within rounding of the limit 1e-9), in a slice at least 2^-43 R from every corner with no crossing edge rising less than 1e-9 mm, a tile stores every voxel of its box around which the solid contains all points within one voxel side and 2^-43 R. So dicing changes nothing but voxels this close to the surface.", "quantifier": "every float64 mesh, box, number of parts and tile, every schedule", "why_tests_cant": "unbounded meshes and divisions, rounding of every operation", "anchors": ["cmd/stldice/stldice.go:main", "binvox/voxelize.go:Voxelize", "binvox/voxelize.go:intersectSegment"]}
{"id": "C107", "title": "The marching-cubes surface encloses exactly the voxels of the model", "statement": "Take a point p closer than half a voxel (sum of the coordinate distances) to the centre of voxel k, not exactly on one of the lines through the centre that edges can lie on when seen along x. The ray from p in direction x passes each triangle of the result through its inside or not at all, and it leaves through the surface exactly once more than it enters if k is a voxel of the model, and as often as it enters if not. So with the closed surface (C49) the voxel centres inside of it are exactly those of the model: no voxel is lost, none is added, cavities stay cavities, and the surface is not inside out.", "quantifier": "every model, every voxel inside or outside of it, every such point, every iteration order", "why_tests_cant": "unbounded models and positions", "anchors": ["binvox/marching-cubes.go:MarchingCubes", "binvox/marching-cubes.go:triTable", "binvox/marching-cubes.go:polygonize"]}
{"id": "C108", "title": "The ManifoldMesh surface encloses exactly the voxels of the model", "statement": "For a model as in C50 (well-composed, no twisted chain) take a point inside of the cube of any voxel, not exactly on one of the lines edges can lie on when seen along x. The ray from it in direction x passes each triangle through its inside or not at all, and it leaves through the mesh exactly once more than it enters if the voxel is in the model, and as often as it enters if not. So the mesh, which is closed (C50), separates exactly the cubes of the voxels from the rest of space.", "quantifier": "every finite voxel set of this kind, every voxel inside or outside of it and every such point, every map order, exact arithmetic", "why_tests_cant": "unbounded models and positions", "anchors": ["binvox/manifold.go:ManifoldMesh", "binvox/manifold.go:grid2tris", "binvox/face-templates.go"]}
{"id": "C109", "title": "64-bit integers in the file readers and writers", "statement": "On a 64-bit machine, where sums of ints wrap around, reading a binvox or vsh file gives the same result as with unbounded integers for every file and all start and count parameters, except if an upper end start + count of the box is above 2^63-1: then no voxel is returned and no error. So whole files and boxes of files with dimensions below 2^62 are always read correctly. Writing gives the same bytes and the same count if the ends of the box and its number of voxels fit 64 bits; if an end does not, a file with a header and no voxels is written and reported as a success.", "quantifier": "every byte string, I/O outcome, start and count; every model, writer and region; 64-bit wrap-around arithmetic", "why_tests_cant": "overflow needs extreme headers and parameters no test has; all inputs", "anchors": ["binvox/read.go:read", "binvox/write.go:write", "binvox/write.go:encode", "vshell/read.go:read", "vshell/write.go:write", "vshell/write.go:encode"]}
{"id": "C110", "title": "A failed vsh write leaves its encoder goroutine behind", "statement": "Under every schedule and whichever file writes fail, writing a vsh file ends, leaves the bytes and returns the result of writing the runs one after the other; when it returns without error its encoder goroutine has ended. When the file fails in run n, it returns an error while the goroutine may still run, and the goroutine ends iff at most 100 runs come after run n; otherwise it stays blocked for ever, with the shell it refers to.", "quantifier": "every shell with voxels, region, sequence of write outcomes and schedule", "why_tests_cant": "needs a failing file at each run in every interleaving; a leaked goroutine is invisible to assertions on results", "anchors": ["vshell/write.go:write", "vshell/write.go:encode"]}
{"id": "C111", "title": "Overflow, infinities and NaN do not touch moderate jobs", "statement": "Computed with all of float64, including overflow, infinities, NaN and signed zeros, Voxelize stores exactly the voxels that rounding alone gives if the numbers are of moderate size: mesh and corner of the region within 2^200 of the origin, resolution between 2^-200 and 2^200 voxels per mm, at most 2^50 voxels from the origin to the farthest point. A diced job (all within 2^100, at most 2^40 voxels) has the same layout, or is refused in both. Hence in full float64: a mesh in general position gives exactly the voxels of exact arithmetic, and its tiles together exactly those of the undiced job; whatever the position, a stored voxel is within one voxel side and 2^-43 R of the solid, and a voxel that deep in a convex solid is stored, diced or not, under the conditions of C104 and C106.", "quantifier": "every finite float64 mesh, region and job of moderate size, every schedule, both zeros", "why_tests_cant": "overflow and NaN of intermediate results depend on all of the numbers; unbounded meshes", "anchors": ["binvox/voxelize.go:Voxelize", "binvox/voxelize.go:intersectSegment", "cmd/stldice/stldice.go:main"]}
{"id": "C112", "title": "A region without finite place or scale stays empty", "statement": "If the Scale of the region is NaN or +Inf, or a coordinate of its corner is NaN or infinite (a file can bring such numbers, and the commands can compute them), Voxelize ends without error and stores no voxel of the region, whatever the mesh.", "quantifier": "every mesh, including meshes with NaN and infinite coordinates, every such region, every schedule", "why_tests_cant": "all meshes; the way NaN takes through comparisons and integer conversion decides", "anchors": ["binvox/voxelize.go:Voxelize", "binvox/voxelize.go:intersectSegment", "binvox/binvox.go:VoxelsPerMM"]}
{"id": "C113", "title": "Every float64 survives its text", "statement": "A text of up to 2000 bytes is a number for ParseFloat exactly if it is an optionally signed floating-point literal of Go (decimal, or hexadecimal with a binary exponent, with underscores only between digits or after 0x), inf or infinity with an optional sign, or nan, these in any case; it stands for the float64 nearest to its value, zeros keeping the sign, and is refused if it rounds to 2^1024 or more. What is printed for any float64, infinities, NaN and both zeros included, is read back as the same. So a binvox file keeps every number of its header, the box logged by stldice is read back from -mbb unchanged, and a float flag accepts exactly these texts.", "quantifier": "every byte string up to 2000 bytes; every float64", "why_tests_cant": "all texts and all float64 numbers, including the boundaries of rounding and overflow", "anchors": ["binvox/read.go:Read", "binvox/write.go:Write", "cmd/stldice/stldice.go:main", "cmd/voxcut/voxcut.go:main"]}
{"id": "C114", "title": "Meshes in full float64", "statement": "For a model whose corner lies within 2^200 of the origin, with 2^-200 to 2^200 voxels per millimetre and voxels up to 2^50, MarchingCubes and ManifoldMesh with all of float64 (overflow, infinities, NaN and negative zero included) return exactly the triangles they return with rounding alone: the same numbers in the same order, and no coordinate is ever a negative zero, so that equal points are equal bit for bit. What is known with rounding alone therefore holds: the mesh of MarchingCubes is closed where the crossings are computed alike from both ends, and not closed for one voxel of three per millimetre; ManifoldMesh is an exact closed mesh with its points moved by a few last bits.", "quantifier": "all such models, all map iteration orders and goroutine schedules", "why_tests_cant": "all models; float64 corner cases such as negative zeros cannot be enumerated", "anchors": ["binvox/marching-cubes.go:MarchingCubes", "binvox/manifold.go:ManifoldMesh"]}
{"id": "C115", "title": "Merging in full float64", "statement": "New, Add and Merge with all of float64 do exactly what they do with rounding alone, for up to 2^40 models with corners within R <= 2^200 of the origin, 2^-199 to 2^49 voxels per millimetre and at most 2^49 voxels along R, as long as no grid along the way has more than 2^53 voxels a side: they fail alike, or give the same shell with the same grid, corner, scale and voxels. Overflow, infinities and NaN never arise.", "quantifier": "all lists of such models, all map iteration orders", "why_tests_cant": "all inputs; drift of the resolution over many merges", "anchors": ["vshell/vshell.go:New", "vshell/merge.go:Add", "vshell/merge.go:Merge"]}
{"id": "C116", "title": "stldice and its script in full float64", "statement": "With all of float64 (overflow, infinities, NaN and negative zero included) stldice and then the script it prints do what they should, for a job whose files can be read and written, whose box and meshes are finite numbers within 2^100 of the origin, of moderate resolution, and whose meshes are in general position to the grid: every tile's STL file holds a mesh of finite numbers, closed, up to the last few bits an exact mesh of the voxels of the tile left of the base after the cuts - the voxels of the undiced models -, in the tile's place; a tile without a file has nothing left; the exact volumes add up; the merged file, written if two tiles have voxel files, has the triangles of all the tiles' files; no other file changes. This assumes that the mesher of the library computes finite numbers up to 2^60 that are exactly a mesh of the skin of the unit cubes, and that files of a correct size are read back with each point rounded in one way.", "quantifier": "all such jobs, all schedules and map iteration orders, in float64", "why_tests_cant": "all inputs and interleavings across three programs", "anchors": ["cmd/stldice/stldice.go:main", "cmd/voxcut/voxcut.go:main", "cmd/merge-stl/merge-stl.go:main", "binvox/voxelize.go:Voxelize", "binvox/mesh.go:ToMesh"]}
{"id": "C117", "title": "The settings of the commands", "statement": "Each of the twelve commands has exactly the settings of its documentation, of the documented types: it can set a name to a text if and only if the name is one of its settings and the text is a value of its type. A flag it does not have (such as a misspelt one), or a setting with a text that is no value of its type, after any valid settings, is always refused: the command then writes no file and ends as a failure, or as a success for -h and -help. (Settings that the gleam library adds to stldice-mr are left out.)", "quantifier": "all arguments of all commands", "why_tests_cant": "all argument lists, all names and all values", "anchors": ["cmd/stldice/stldice.go:main", "cmd/merge-stl/merge-stl.go:main", "cmd/merge-binvox/merge-binvox.go:main", "cmd/voxcut/voxcut.go:main", "cmd/voxcut-dice/voxcut-dice.go:main", "cmd/binvox-dice/binvox-dice.go:main", "cmd/stl2svx/stl2svx.go:main", "cmd/stldice-mr/stldice-mr.go:main", "stl2svx/stl2svx-client/stl2svx-client.go:main"]}
{"id": "C118", "title": "Dicing, then merging into one shell", "statement": "After a successful stldice job, merge-binvox on the tiles of one of its meshes: if the first file found is a non-empty tile lying at or before every tile with a file in all three directions (and the slices have room for all files), it succeeds; the shell's dimensions are no larger than what is left of the grid from that tile on; and the .vsh file, if no run of 65536 equal cells occurs, reads back exactly the exposed voxels with a neighbour of the undiced model, with the exact set of their neighbours, each in its exact place at the job's resolution, in every order in which Go visits its maps. Violated otherwise: if the tile in the corner has no voxels while three other tiles have, the merge of the sorted files still succeeds but the tiles are torn apart, whatever the map orders.", "quantifier": "all jobs, directories, sets of tiles and map iteration orders", "why_tests_cant": "all inputs and orders across two programs; the file formats between them", "anchors": ["cmd/stldice/stldice.go:main", "cmd/merge-binvox/merge-binvox.go:main", "vshell/merge.go:Merge", "vshell/merge.go:Add", "vshell/merge.go:update", "vshell/read.go:Read"]}
{"id": "C119", "title": "A shell built from overlapping models keeps every exposed voxel", "statement": "Build a shell from any model and add any models to it, in any number, overlapping or not: after every step, whatever the order in which Go visits its maps and whatever the capacities of its slices, the shell lists only voxels of the union of the models (each moved as the Adds moved it), lists every voxel of that union that has a missing neighbour, names in its bit maps only neighbours that are really in the union, and is never empty. (Positions may be listed twice, C17, and bits may be missing, C16.)", "quantifier": "all histories of additions, models, map iteration orders, slice capacities and float arithmetics", "why_tests_cant": "all inputs, orders and histories", "anchors": ["vshell/vshell.go:New", "vshell/merge.go:Add", "vshell/merge.go:update", "vshell/merge.go:findNeighbors"]}
{"id": "C120", "title": "Dicing, then merging into one shell, in float64", "statement": "C118 in float64 arithmetic. After a successful stldice job with meshes in general position to its grid, merge-binvox on the tiles of one of its meshes, in any map order: if the first file found is a non-empty tile at or before every tile with a file in all three directions, the grid times the number of files is below 2^44 voxels, and the job's resolution keeps a distance of 2^-47 of itself per file from the whole numbers around it, the merge succeeds; the shell keeps the first tile's place and the resolution up to 2^-47 of it per file; every tile is put in its place or one voxel short of it along an axis, never further; and the shell lists only, and all exposed, voxels of the undiced model cut into tiles put so. That each tile is put in its place is violated: 'stldice -mbb 0.1,0,0,0.4,0.3,0.3 -dim 2 -nx 2 -ny 1 -nz 1' on a tetrahedron with voxels in both tiles makes merge-binvox put the second tile on top of the first, in every map order.", "quantifier": "all jobs, meshes in general position, directories, sets of tiles, map iteration orders and slice capacities; float64 arithmetic", "why_tests_cant": "all inputs and orders; rounding", "anchors": ["vshell/merge.go:Merge", "vshell/merge.go:Add", "vshell/merge.go:update", "cmd/merge-binvox/merge-binvox.go:main", "cmd/stldice/stldice.go:main"]}
{"id": "C121", "title": "The goroutines that compute a slice", "statement": "SliceJob of an agent (and the same code in the stl2svx command) runs three goroutines: a generator that hands out the jobs over an unbuffered channel, the caller that voxelizes them and sends voxels over a channel of 1000, and the imager. Under every schedule they never block each other for good and never run forever; they can come to exactly the images and fatal exits of doing the jobs one after the other and then painting the image, so C41, C42, C65 and C92 hold of the goroutines; a fatal file never leads to an image, however many jobs were done before; when the image is returned all jobs were done, the imager has received every voxel sent, in order, and no goroutine is left behind. In exact arithmetic a slice request with valid files and one tile along z ends under every schedule with the image of the base minus the cuts.", "quantifier": "all files, tile counts, slices, schedules, map orders and channel capacities", "why_tests_cant": "all interleavings of three goroutines", "anchors": ["stl2svx/agent/agent.go:SliceJob", "stl2svx/agent/agent.go:generateMR", "stl2svx/agent/agent.go:voxelize", "stl2svx/agent/agent.go:imager", "cmd/stl2svx/stl2svx.go:agent", "cmd/stl2svx/stl2svx.go:generateMR"]}
{"id": "C122", "title": "What one job can do to the stl2svx service", "statement": "For every protobuf message, from any client: NewJob ends the master process, and with it every job, iff the first file has a triangle and either some triangle of it lacks a corner or the number of divisions is zero along some axis; SliceJob ends the agent iff some file lacks a corner, fails its own size check, or a tile above the bottom row has something filled in its slice. In every history of the service the idle agents, the running calls and the failed calls are together at most the registrations. So a job that the master accepts and one of whose files, possibly a cut, is bad in this way, loses one agent per slice: with fewer registrations than slices it never returns; otherwise it returns, without an error, an archive with the manifest, two black images and no slice, and if there were no more registrations than slices every other unfinished job is starved however good its own request.", "quantifier": "all messages, all histories of registrations, jobs, calls and failures", "why_tests_cant": "Unit tests send well-formed requests to one server; the claim is about every message and every interleaving of jobs and agents.", "anchors": ["stl2svx/stl/stl.go:New", "stl2svx/master/master.go:NewJob", "stl2svx/master/master.go:runAgent", "stl2svx/agent/agent.go:SliceJob", "stl2svx/agent/agent.go:generateMR", "stl2svx/proto/stl2svx.proto:NewJobRequest"]}
{"id": "C123", "title": "Merging the tiles of voxcut-dice stacks them on one another", "statement": "If voxcut-dice with -obinvox ends well and no system call failed, every tile in which something is left has a .binvox file that a reader finds to be a cube of -size voxels a side, at the translation and scale of the *base* (not of the tile), with the tile's voxels moved to the origin. So merge-binvox over any of these files, in any order, reports no error and gives a shell of one tile's size at the base's place that keeps the exposed voxels of the tiles laid on top of one another: a voxel left at k in tile t is found at k-t and never at k if k is beyond the first cube, and voxels at the same place of different tiles become one.", "quantifier": "All number types in which a number is at distance 0 from itself (exact and float64), bases, cut files, tile sizes, lists of tiles, contents and orders; all map orders and slice capacities.", "why_tests_cant": "A test merges one diced model; that no choice of tiles, sizes and schedules puts the parts back in their places is a statement about all of them.", "anchors": ["cmd/voxcut-dice/voxcut-dice.go:main", "cmd/voxcut/voxcut.go:main", "binvox/write.go:write", "vshell/merge.go:Merge", "vshell/merge.go:update"]}
{"id": "C124", "title": "One empty file spoils merge-binvox", "statement": "A model without voxels is written as a 0x0x0 file (voxcut-dice does so for a tile in which nothing is left and which no cut file reaches). Such a file among those merged is harmful in full float64: after a shell with voxels it is accepted exactly if the resolution of the shell cut to an int is 0, so with at least one voxel per mm the whole merge fails, whatever else there is to merge; as the first file (or files) it makes the next file's voxels be taken with a scale of +Inf and with the empty file's place instead of their own, without an error, and every further file with at least one voxel per mm makes the merge fail.", "quantifier": "All empty models with a positive finite scale, shells, models (with voxels inside dimensions up to 2^63-1), lists of files before and after, map orders and capacities; IEEE float64 with infinities.", "why_tests_cant": "A test merges some lists of files; the division by a zero resolution shows only with an empty file in first place and its consequence only with the file after the next.", "anchors": ["vshell/merge.go:Merge", "vshell/merge.go:update", "vshell/merge.go:Add", "vshell/vshell.go:New", "vshell/vshell.go:VoxelsPerMM", "binvox/write.go:write", "cmd/voxcut-dice/voxcut-dice.go:main"]}
{"id": "C125", "title": "voxcut-dice with sizes beyond the ordinary: zero, negative, and steps that overflow", "statement": "With a size of zero voxcut-dice never ends well on a model that is not empty, dry run or not. With a negative size a real run fails at its first command and changes no file. With a positive size, if the last step in some direction goes beyond the 64-bit integers, the loop variable comes out below zero, voxcut refuses that box, and the run never ends well. A dry run with a negative size, however, can end well: the variables run down and come out at the top; with -2^62 it prints 27 commands, for boxes starting at 0, -2^62 and -2^63, all of which voxcut refuses.", "quantifier": "every model file, size, prefixes, file system outcome and (for the real runs) every execution", "why_tests_cant": "all sizes and dimensions up to the limits of 64-bit integers; loops of up to 2^63 rounds", "anchors": ["cmd/voxcut-dice/voxcut-dice.go:main", "cmd/voxcut/voxcut.go:main"]}
{"id": "C126", "title": "A dice job killed at any moment loses at most one tile per kill, silently and for good", "statement": "Kill a stldice run at any moment, also in the middle of writing a tile file, start the same command again, kill it again, and so on n times, and let the next run finish. It reports success. Files that are not tiles of the job are as they were. If the job began without tile files, every tile except at most n holds exactly what an uninterrupted job writes (nothing for an empty tile): exactly the voxels of the undiced model. Each of the at most n others keeps the first bytes of its file, as the kill left them; that file cannot be read or reads as a model with the tile's header and some of its voxels, never a wrong voxel. The finishing run returns exactly the non-empty tiles that had no file when it started, so neither the damaged tiles nor those written before a kill are in the commands it emits. Every such loss can happen: any non-empty tile without a file, cut at any byte. The same holds for runs that end with an error of creating a file, writing its data or closing it.", "quantifier": "every mesh, box, layout, directory, number of kills, moment and byte of every kill, worker schedule of every run", "why_tests_cant": "the crash points are every byte of every tile of every run, and the damage only shows in combination with the runs that follow", "anchors": ["cmd/stldice/stldice.go:diceMesh", "binvox/write.go:Write"]}
{"id": "C127", "title": "The script of stldice can be killed and run again", "statement": "Take the script printed by a stldice run that succeeded (plain file names, dim, nx, ny and nz not negative), in the directory that run left. Start the script any number of times, each time killed at any moment - between commands or while one of them is writing its file - or with any of its commands failing, and then let it run once undisturbed. The directories this can leave are exactly the directories that one undisturbed run alone can leave, so everything said about a single run of the script (C78) still holds: no torn or stale STL file of an earlier run survives or gets into the merged mesh. Meanwhile the killed runs touch nothing but the STL files of the job: every other file, in particular every .binvox file, keeps its content. And the kills do damage: every file that a run of the script writes can be left by a killed run with any beginning of its content, so the merged or the tile file found after a killed run must not be used.", "quantifier": "All successful stldice runs, all numbers of earlier runs of the script, all kill points inside and between commands and all failures in each, all meshers, worker counts and schedules of the final run.", "why_tests_cant": "A test kills a script at a few points; whether a torn file of any length, of any tile, or of the merged mesh itself can be taken as an input by a later run has to be settled for every kill point and every history of killed runs.", "anchors": ["cmd/stldice/stldice.go:main", "cmd/voxcut/voxcut.go:main", "cmd/merge-stl/merge-stl.go:main"]}
{"id": "C128", "title": "The script of stldice merges every STL file whose name fits", "statement": "Take the script printed by a stldice run that succeeded (plain file names, dim, nx, ny and nz not negative) and run it in a directory that may hold anything else. A tile whose binvox files leave something gets its mesh; a tile of the script that leaves nothing keeps the STL file it had before, if any; no other file changes but the merged one. With at most one new tile the merged file is not touched. With two or more, the merged file holds the triangles of every file that exists then and whose name is the result's name, any text without a slash and .stl (the result itself excepted), each once, whether this job has written it or not; and the script goes through exactly if each of these that it does not write anew can be read. For jobs whose results begin alike - all jobs with several arguments do, with out - the tiles and the merged file of the other job fit exactly if -dim, -nx and -ny are the same and the decimal digits of this -nz begin those of the other, as 1 begins 10: then the other job's model ends up in this one.", "quantifier": "All successful stldice runs, all contents of the directory, all file names, all tile indices and numbers (no bound), all meshers, worker counts and schedules of the merge.", "why_tests_cant": "A test runs a job in a fresh directory, where the merged file is right; that an unrelated file is taken depends on its name and on the digits of a number, over all names and numbers.", "anchors": ["cmd/stldice/stldice.go:main", "cmd/merge-stl/merge-stl.go:main", "cmd/voxcut/voxcut.go:main"]}
{"id": "C129", "title": "voxcut, voxcut-dice, manifold-mesh and marching-cubes can be killed and run again", "statement": "Start voxcut any number of times with the same flags, voxcut-dice (not as a dry run) or manifold-mesh or marching-cubes any number of times with the same arguments; each start may run to an end of any kind, with files that cannot be created or written, or be killed at any moment, with an output file not yet created or holding any beginning of its content and the outputs before it complete. If no output is one of the input files, these starts change nothing but the outputs, and the runs that end well after them leave exactly the directories that runs that end well on the original files can leave: all files, and each of these directories is still possible. Nothing has to be removed before the restart, and no torn or stale output stays. A kill can leave the STL and the VOX file of voxcut with any beginning of their content. Without the condition it fails: if the -obinvox output of voxcut is its base, a kill right after the output was created leaves an empty base, and every later start ends with an error and changes nothing.", "quantifier": "All models, flags, regions, numbers of tiles and files, all numbers of earlier starts, all kill points, all failures of creating, writing and closing files in each, all orders of map iteration and meshers, all float types.", "why_tests_cant": "A test kills a command at a few points; that what any history of kills and failures leaves has no influence on a later run has to hold for every kill point of every output of every tile and every number of starts.", "anchors": ["cmd/voxcut/voxcut.go:main", "cmd/voxcut-dice/voxcut-dice.go:main", "cmd/manifold-mesh/manifold-mesh.go:main", "cmd/marching-cubes/marching-cubes.go:main", "binvox/write.go:Write"]}
{"id": "C130", "title": "merge-stl and merge-binvox can be killed and run again; merge-stl only with -f", "statement": "Start merge-stl or merge-binvox any number of times with the same arguments; each start may run to an end of any kind, or be killed at any moment, its output not yet created or holding any beginning of its content. No file but the output ever changes. With -f, a merge-stl that ends well after them leaves exactly what a merge-stl that ends well on the original files can leave; so does merge-binvox, with -f or without. Without -f merge-stl is different: once its output exists, whatever it holds, every start changes nothing and ends with an error. So one kill at the wrong moment is final: it leaves any beginning of the output, and then no number of starts, run or killed, changes that or ends well.", "quantifier": "All flags, files, prefixes, numbers of workers, schedules of the pool, all numbers of earlier starts, kill points and ends of each, all orders of map iteration, all STL libraries and loaders, all float types.", "why_tests_cant": "A test kills at one moment and restarts once; that nothing of any history of torn outputs reaches the merged model, and that no history brings an unforced merge back, is about all histories.", "anchors": ["cmd/merge-stl/merge-stl.go:main", "cmd/merge-binvox/merge-binvox.go:main", "stl/stl.go:Merge", "vshell/merge.go:Merge"]}
{"id": "C131", "title": "The servers of stldice ignore their command lines, and the master gives nothing back", "statement": "stldice-master listens at :5334 and stldice-slave at :5333, whatever their arguments: -port has no effect, and neither has anything else (not even -h). Change the arguments of any starts in any history of a host, and the history goes as it went. So a start succeeds exactly if nobody listens at that address; on one host there is never more than one master nor more than one slave, and while one runs every further start of its kind, with any -port, ends with an error and changes nothing. Every reply of a master, whatever it is asked and after whatever, is empty: it never gives an STL mesh back; and a request to it changes nothing but its reply.", "quantifier": "All histories of starts with any arguments, stops, other programs that take and give back addresses, and requests to masters.", "why_tests_cant": "A test tries some arguments and some requests; that no arguments and no history of requests make a difference is about all of them.", "anchors": ["server/stldice-master/stldice-master.go:main", "server/stldice-master/stldice-master.go:AddSTLMesh", "server/stldice-master/stldice-master.go:SubSTLMesh", "server/stldice-master/stldice-master.go:GetSTLMesh", "server/stldice-slave/stldice-slave.go:main"]}
{"id": "C132", "title": "svx2stl, stl2svx and stldice-mr can be killed and run again", "statement": "Start svx2stl, stl2svx (without -bucket) or stldice-mr any number of times with the same arguments; each start may run to an end of any kind or be killed at any moment, an output not yet created or holding any beginning of its content (of the archive of stl2svx and the images of stldice-mr: anything). No file but the outputs ever changes: x.stl for an argument x.svx, out<dim>.svx, the images of slices with voxels. If no output is one of the input files, the runs that end well afterwards (of stldice-mr: that write all their images) leave exactly the directories that such runs on the original files can leave: all files, and each of these directories is still possible. Where an argument of svx2stl is the output of a later one it fails: a kill can leave it empty, and then every later start ends with an error and changes nothing.", "quantifier": "All arguments, archives, models and meshes, all numbers of earlier starts, kill points and ends, all schedules, orders of map iteration, of calls on the archive and of groups, all libraries for zip, PNG and STL, all float types.", "why_tests_cant": "A test kills at one moment and restarts once; that nothing of any history of torn outputs reaches the final files is about all histories.", "anchors": ["cmd/svx2stl/main.go:main", "cmd/stl2svx/stl2svx.go:main", "cmd/stl2svx/stl2svx.go:master", "cmd/stldice-mr/stldice-mr.go:main", "cmd/stldice-mr/stldice-mr.go:imager"]}
{"id": "C133", "title": "The script of binvox-dice cannot be killed and run again", "statement": "When the script of binvox-dice is killed at any moment, the directory has gained, for every argument, the binvox files of the first boxes, of the same number of boxes for each, and of the next box nothing or the file or a beginning of it; besides these and out.stl, out_1.stl, ... nothing has changed. When the script is then run again to its end without the binvox files being removed, with k files of an argument there, voxcut reads for the boxes below k the files of the killed run, the last of them perhaps torn, and for every later box n the file of box n-k; the files of an argument may be one more than those of another, so that the models cut from each other are those of different boxes. After a complete run, a second one reads the files of the first whatever the models are now, so the STL files are those of the earlier models.", "quantifier": "every list of names without surprises, box, factor, content of the directory, behaviour of the tool on each file and box, every moment at which the script is killed, and every outcome of each voxcut", "why_tests_cant": "The kill can come between or inside any of the lines, and the effect is a shift between the names the script fixed in advance and the numbers the external program takes from what is in the directory; a test would have to run the external program and kill it at every moment.", "anchors": ["cmd/binvox-dice/binvox-dice.go:main", "cmd/voxcut/voxcut.go:main"]}
{"id": "C134", "title": "A client that goes away costs the stl2svx service an agent for every unfinished slice", "statement": "When a client of the stl2svx master is interrupted or cut off while the images of some slices of its job have not come, the job is not ended: it goes on taking idle agents, and every call to them fails, because the context of the job is passed on. In every history from then on, whatever other clients and agents do: when the job ends, each of these slices is lost, and with it an agent, so that the agents idle and working are fewer than the registrations by the number of these slices; with fewer registrations than such slices it never ends; if there were no more registrations than such slices, then after it every other job with a slice left, so the same job sent once more, is starved until an agent registers. As long as the job has as many slices to begin as there are idle agents, it can take and lose all of them before any other job has a turn.", "quantifier": "every history of registrations, jobs, calls and failures before and after the client goes away, every schedule, every number of slices and agents", "why_tests_cant": "The loss depends on the moment at which the client goes away and on how the goroutines of all jobs take agents afterwards, and shows only in what later jobs can do.", "anchors": ["stl2svx/master/master.go:NewJob", "stl2svx/master/master.go:runAgent", "stl2svx/master/master.go:getIdleAgent"]}
{"id": "C135", "title": "A restarted stl2svx master has no agents", "statement": "When the stl2svx master is killed and started again at the same address after every agent process has registered, and no agent process is started afterwards, the new master has no agent, for ever: in every history, whatever jobs clients send, whichever agents are killed and however often the master is started again, no slice of any job is begun and no job with a slice returns, although the agents still run and serve. An agent process started afterwards that can listen, list its interfaces, dial and register is added to the master, with nothing else changed, and the waiting job can then begin its slices.", "quantifier": "every master address, every state of the agent processes in which each has registered, every history of job steps, agent deaths and master restarts; every environment of a newly started agent", "why_tests_cant": "Needs the absence of an event in every history after a crash; a test can restart one master and stop waiting at some moment, which does not tell 'never' from 'not yet'.", "anchors": ["stl2svx/master/master.go:New", "stl2svx/master/master.go:RegisterAgent", "stl2svx/agent/agent.go:New", "stl2svx/stl2svx-server/stl2svx-server.go:main"]}
{"id": "C136", "title": "A dead agent costs the stl2svx service exactly one slice", "statement": "When an agent that is idle or works on a slice dies and no agent registers at its address again, the master does not notice: it goes on counting it among the idle agents, or waits for its answer, until one call to it fails. In every history there is at most one such failed call; from then on the address is neither idle nor working, for ever. The slice of the call is lost for good (or goes to another agent, if it was grpc.Dial that failed), and when jobs do not overlap the job still succeeds: if it returns, its archive is readable and has no file with the name of this slice's image. In example the master gives the dead agent a slice while another agent is free.", "quantifier": "every state of the master in which the agent works on at most one slice and is not idle while working (C43: all that are reached when agents register only while idle), every later history of jobs, other agents and failures", "why_tests_cant": "The death can come at any moment of any schedule, and both the bound of one failed call and the permanence of the loss range over all later histories.", "anchors": ["stl2svx/master/master.go:RegisterAgent", "stl2svx/master/master.go:runAgent", "stl2svx/master/master.go:getIdleAgent", "stl2svx/master/master.go:NewJob"]}
{"id": "C137", "title": "Slices that agents lose are silent gaps in the final model", "statement": "A network stl2svx job with one layer along z, the prefix out and fewer than 9999 slices, at a master that runs one job at a time, whatever its agents do: if the client succeeds, svx2stl opens the file without an error and finds exactly the voxels of the base model without the cuts, but for whole layers: those of the slices that were lost. The other layers stay in their place. With 9999 slices or more svx2stl refuses the file, lost slices or not. And every set of slices can be lost, all of them included: for each there is a history of the master in which the client succeeds and svx2stl then finds exactly the other layers.", "quantifier": "every command line of the client, disk, request, history of the master, schedule and failure of agents; every set of slices; exact arithmetic", "why_tests_cant": "Which slices are lost depends on the schedule and the failures; that the result is the model but for these layers must hold for every mesh and every subset of slices.", "anchors": ["stl2svx/master/master.go:runAgent", "stl2svx/master/master.go:NewJob", "stl2svx/stl2svx-client/stl2svx-client.go:main", "cmd/svx2stl/main.go:read", "cmd/svx2stl/main.go:scanImage"]}
