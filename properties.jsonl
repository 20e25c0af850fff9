{"id": "C01", "title": "Sorting returns the ascending permutation", "statement": "sort.Quick and sort.Shell rearrange the caller's slice in place into the ascending ordering of exactly the values that were in it (no value lost, duplicated or invented), and sort.Reverse reverses it; both algorithms always terminate without an index panic and agree with each other on every input.", "quantifier": "every slice length (including the <25 shell-sort cutoff and the partition path) and every content, over any totally ordered element type", "why_tests_cant": "a test samples some slices; the partition sentinels, cutoff sizes and duplicate patterns are unbounded", "anchors": ["math/sort/quick.go: Quick, partition, sort3", "math/sort/shell.go: Shell", "math/sort/sort.go: Reverse"]}
{"id": "C02", "title": "Order statistics are exact", "statement": "sort.NthLargest(xs, n) for 1 <= n <= len(xs) returns the n-th element counted from the top of the ascending ordering of xs (with multiplicity), leaves xs unmodified, and sort.Median returns the middle element (odd length) or the mean of the two middle elements (even length).", "quantifier": "every non-empty slice, every n in range, every buffer contents", "why_tests_cant": "the selection recursion depends on the data; all orderings with ties cannot be enumerated", "anchors": ["math/sort/median.go: NthLargest, Median, nthLargestLoop"]}
{"id": "C03", "title": "Percentile is the p-quantile counted from below", "statement": "sort.Percentile(xs, p) returns an element of xs such that about a fraction p of the values are at or below it: it is monotone non-decreasing in p, p = 0 gives the minimum and p = 1 gives the maximum.", "quantifier": "every non-empty slice and every p in [0,1]", "why_tests_cant": "a test with p = 0.5 cannot distinguish the ascending from the descending convention", "anchors": ["math/sort/median.go: Percentile", "cmd/prof.go: processMedianProfile"]}
{"id": "C04", "title": "Version comparison is a strict total order", "statement": "version.Parse accepts exactly the strings made of three non-negative decimal integers joined by dots, and version.Later compares them lexicographically: irreflexive, asymmetric, transitive, and exactly one of a later than b, b later than a, a = b holds.", "quantifier": "all strings and all triples of versions", "why_tests_cant": "order laws quantify over all triples of versions and acceptance over all strings", "anchors": ["version/version.go: Parse, Later"]}
{"id": "C05", "title": "Reading a configuration file assigns exactly what the file says", "statement": "After parse.ReadConfig succeeds, each declared variable mentioned in the file holds the conversion of the text to the right of its '=' and every declared variable not mentioned keeps its default; nothing else changes. It fails if the first significant line is not the expected [name] header, if a line has no '=', if an unknown variable is named, if a variable is named twice, or if a value does not convert, and the reported line number is the 1-based line of the file.", "quantifier": "all file contents, all sets of declared variables", "why_tests_cant": "file contents are unbounded; independence of unrelated lines and completeness of error detection are universal claims", "anchors": ["parse/config.go: ReadConfig, removeComments, associationList, checkValidNames, checkDuplicateNames, convertAssoc"]}
{"id": "C06", "title": "Configuration reading ignores layout", "statement": "Blank lines, '#' comments, spaces around names and values, the letter case of variable names and the order of the assignment lines do not affect the variables that parse.ReadConfig assigns.", "quantifier": "all files and all insertions of comments/blank lines/spaces and permutations of lines", "why_tests_cant": "layout variations are unbounded", "anchors": ["parse/config.go: ReadConfig, removeComments, associationList"]}
{"id": "C07", "title": "Command-line flags override the file and touch nothing else", "statement": "parse.ReadFlags(flags, vars) sets each variable named by a --Name flag to the comma-joined tokens that follow it (up to the next flag) and leaves all other variables as the configuration file or the default left them; unknown or repeated flags are errors, never silently dropped.", "quantifier": "all token sequences and all declared variable sets", "why_tests_cant": "argument vectors are unbounded", "anchors": ["parse/config.go: ReadFlags", "shellfish.go: getFlags, getConfig"]}
{"id": "C08", "title": "Config and flag errors are reported, never panics", "statement": "Whatever the user writes in a config file or in the flag list, parse.ReadConfig and parse.ReadFlags return nil or an error value; they do not panic.", "quantifier": "all file contents and token sequences", "why_tests_cant": "absence of a panic is a universal claim over inputs", "anchors": ["parse/config.go: ReadConfig, ReadFlags, convertAssoc"]}
{"id": "C09", "title": "Catalogs written by Shellfish read back unchanged", "statement": "For any rectangular set of integer columns, the text made by catalog.FormatCols is parsed by catalog.Parse (asked for the same columns in the written order) to exactly the same columns, for every column order given.", "quantifier": "all numbers of rows and columns, all integer values, all column orders", "why_tests_cant": "widths depend on the data in every row; the round trip must hold for all values", "anchors": ["cmd/catalog/catalog.go: FormatCols, Parse, formatIntCol"]}
{"id": "C10", "title": "Catalog parsing ignores comments, blank lines and padding", "statement": "catalog.Parse returns, for each requested column index, the values of that column in line order, unaffected by '#' comments, empty lines or the amount of blank space between fields; rows whose number of fields differs from the first row are rejected with an error rather than crashing.", "quantifier": "all byte strings", "why_tests_cant": "input text is unbounded", "anchors": ["cmd/catalog/catalog.go: Parse, trim, uncomment, split, fields, parse"]}
{"id": "C11", "title": "Catalog headers label each column exactly once", "statement": "The comment header made by catalog.CommentString labels the columns 0 .. total-1 with consecutive disjoint ranges, in the given order, whose lengths are the declared column sizes.", "quantifier": "all numbers of columns, sizes and orders", "why_tests_cant": "sizes are unbounded", "anchors": ["cmd/catalog/catalog.go: CommentString"]}
{"id": "C12", "title": "Snapshot files are enumerated completely and uniquely", "statement": "The environment built from a snapshot format lists, for each snapshot and each combination of block indices, exactly one file name; the list per snapshot has length equal to the product of the block counts, no combination is missing or repeated, and ParticleCatalog(snap, block) returns the names of the requested snapshot.", "quantifier": "all numbers and lengths of format columns, all snapshots and blocks", "why_tests_cant": "the mixed-radix enumeration must hold for all shapes", "anchors": ["cmd/env/env.go: interleave, ParticleCatalog", "cmd/cmd.go: formatMeanings"]}
{"id": "C13", "title": "Filter files round-trip", "statement": "io.ReadFilter applied to a file written by io.WriteFilter returns the same snapshots, halo ids and particle id lists, for either byte order.", "quantifier": "all numbers of halos, all particle lists, both byte orders", "why_tests_cant": "sizes and contents are unbounded", "anchors": ["io/filter_data.go: WriteFilter, ReadFilter"]}
{"id": "C14", "title": "Filter file start offsets locate each halo's block", "statement": "In a file written by io.WriteFilter the StartByte recorded for halo i is the byte offset at which halo i's particle ids begin, so readers can seek to one halo.", "quantifier": "all numbers of halos and particle lists, every i", "why_tests_cant": "a one-halo test passes while every later halo is wrong", "anchors": ["io/filter_data.go: WriteFilter", "cmd/stats.go: ExampleConfig"]}
{"id": "C15", "title": "Uniform random numbers are in range, never stall and batch equals single", "statement": "For every seed the Xorshift generator's Next yields values in [0,1), the retry loop inside it ends after a bounded number of steps, drawing n numbers with NextSequence gives the same values and final state as n calls to Next, and two generators with equal seeds give equal streams.", "quantifier": "all 2^32 seeds, all stream positions, all batch lengths", "why_tests_cant": "the state space is 2^128; termination of the rejection loop is a property of the recurrence, not of samples", "anchors": ["math/rand/xorshift.go: Init, Next, NextSequence", "math/rand/rand.go: UniformAt, Uniform"]}
{"id": "C16", "title": "Tausworthe generator is in range and batch equals single", "statement": "The Tausworthe generator's Next never indexes outside its state, yields values in [0,1), and NextSequence equals repeated Next.", "quantifier": "all seeds, positions, batch lengths", "why_tests_cant": "long-period ring-buffer index wrap-around cannot be exhausted by tests", "anchors": ["math/rand/tausworthe.go"]}
{"id": "C17", "title": "Sobol sequences do not repeat", "statement": "Successive points of a Sobol sequence lie in [0,1)^d and in each dimension the first 2^k values (k <= 30), together with 0, are exactly the multiples of 2^-k, so no two of the first 2^30 - 1 points coincide; the sequence reports exhaustion rather than crashing.", "quantifier": "all dimensions 1..6, all k, all positions", "why_tests_cant": "2^30 points cannot be enumerated", "anchors": ["math/rand/sobol.go: Init, Next, NextAt"]}
{"id": "C18", "title": "Parallel sections wait for every worker", "statement": "A LockGroup's Synchronize returns only after each of its workers has called Unlock, whatever order they run in; no worker ever blocks in Unlock, and if every worker calls Unlock once Synchronize does return.", "quantifier": "all numbers of workers and all interleavings", "why_tests_cant": "schedules cannot be enumerated by tests", "anchors": ["cmd/utils.go: NewLockGroup, Lock.Unlock, LockGroup.Synchronize"]}
{"id": "C19", "title": "Work is split across threads exactly once", "statement": "For any thread count, the strided loops used to distribute particles and halos process each index (each sub-sampled index) exactly once, so counting-type results do not depend on Threads nor on the interleaving.", "quantifier": "all thread counts, array lengths, sub-sampling factors, schedules", "why_tests_cant": "schedules and sizes are unbounded", "anchors": ["cmd/shell.go: chanLoadSphereVec", "cmd/stats.go: massContainedChan", "cmd/prof.go: Run", "cmd/potential.go: insertPotentialPoints"]}
{"id": "C20", "title": "Density profiles do not depend on how particles are distributed over workers", "statement": "Splitting a halo's line-of-sight profiles over workers, inserting the particles in any distribution and any order and joining the workers gives the same retrieved profiles as inserting all particles sequentially; splitting itself adds no mass.", "quantifier": "all numbers of workers, bins, rings, insertion sequences and distributions", "why_tests_cant": "distributions and orders are unbounded", "anchors": ["los/profile_ring.go: Split, Join, Insert, Retrieve", "los/halo.go: Split, Join", "cmd/shell.go: sphereLoop"]}
{"id": "C21", "title": "A sphere's chord contributes its length to the profile", "statement": "ProfileRing.Insert(start, end, rho, i) adds rho times the overlapped fraction of each radial bin to line of sight i and only to it; segments entirely outside the radial range change nothing, the order of insertions is irrelevant and Retrieve returns the sum over insertions.", "quantifier": "all bins, ranges, sequences of insertions", "why_tests_cant": "fractional boundary bins depend on real-valued inputs", "anchors": ["los/profile_ring.go: Insert, Retrieve"]}
{"id": "C22", "title": "Every halo is in exactly one grid cell", "statement": "After Grid.Insert into a new grid of any set of positions in the periodic box or at most one box width outside of it, each inserted index is listed by exactly one cell, cell lengths add up to the number of inserted halos, and reading a cell returns exactly the indices placed in it.", "quantifier": "all grids, position sets", "why_tests_cant": "linked-list integrity must hold for every insertion sequence", "anchors": ["cmd/halo/grid.go: Insert, ReadIndexes, Length, MaxLength"]}
{"id": "C23", "title": "Subhalo search is exact in a periodic box", "statement": "SubhaloFinder.FindSubhalos marks j as a subhalo of i exactly when j is later in the mass ordering and its periodic distance to i is within i's radius: the cell-based search misses none and adds none.", "quantifier": "all halo positions, radii, cell counts, box widths", "why_tests_cant": "corner cells and wrap-around cases are unbounded", "anchors": ["cmd/halo/finder.go: FindSubhalos, markSubs, SphereBounds, ConvertIndices"]}
{"id": "C24", "title": "Host and subhalo lists are converse relations", "statement": "For all i and j, j is in Subhalos(i) iff i is in Hosts(j); HostCount and SubhaloCount are the lengths of these lists and the lists contain no duplicates.", "quantifier": "all relations built by the finder", "why_tests_cant": "index bookkeeping must hold for every relation", "anchors": ["cmd/halo/finder.go: crossMatch, Hosts, Subhalos, HostCount, SubhaloCount"]}
{"id": "C25", "title": "ID ranges are inclusive", "statement": "The id mode with IDStart and IDEnd (or with a mass range) outputs every halo whose rank lies in the documented inclusive range, each exactly once, in rank order.", "quantifier": "all catalogs and ranges", "why_tests_cant": "off-by-one at the range end depends on catalog size", "anchors": ["cmd/id.go: getIDs, getIDsRange, validate, Run"]}
{"id": "C26", "title": "The mass-sorted halo memo returns the most massive halos", "statement": "memo.ReadSortedRockstarIDs(snap, maxID) returns the ids of the maxID+1 most massive halos in non-increasing mass order, for every maxID less than the number of halos, and reports an error otherwise.", "quantifier": "all catalogs and maxID", "why_tests_cant": "boundary when maxID equals the catalog length", "anchors": ["cmd/memo/memoize.go: ReadSortedRockstarIDs, readRockstar, RockstarConvertTopN", "cmd/halo/io.go"]}
{"id": "C27", "title": "Memoised headers equal freshly read headers", "statement": "memo.ReadHeaders returns, from the cache, the same headers and file names as reading the snapshot files directly, also after any interruption while the cache was being written.", "quantifier": "all snapshot contents, all crash points", "why_tests_cant": "crash points during the write cannot be sampled exhaustively", "anchors": ["cmd/memo/memoize.go: ReadHeaders"]}
{"id": "C28", "title": "A reused memo directory always matches the configuration", "statement": "The cache directory is reused only if every global configuration setting that affects its contents is unchanged.", "quantifier": "all pairs of configurations", "why_tests_cant": "the product of all settings is unbounded", "anchors": ["cmd/cmd.go: configEqual", "shellfish.go: checkMemoDir"]}
{"id": "C29", "title": "ID lookup finds the requested halo", "statement": "Looking up an id among a snapshot's ids returns an index at which that id is stored, and reports absence exactly when the id is not present.", "quantifier": "all id lists and ids", "why_tests_cant": "hash-free universal property over lists", "anchors": ["cmd/memo/memoize.go", "cmd/coord.go: readHaloCoords", "cmd/halo/io.go"]}
{"id": "C30", "title": "Byte order conversion is lossless", "statement": "Reading a block in the non-native byte order is the inverse of writing it so: swapping twice is the identity, and a little-endian file and its byte-swapped big-endian twin decode to the same values.", "quantifier": "all buffers of 32- and 64-bit words and both orders", "why_tests_cant": "all bit patterns", "anchors": ["io/io.go: reorder helpers, read*AsByte"]}
{"id": "C31", "title": "Particle blocks are decoded in file order", "statement": "Reading a Gadget file returns positions, velocities, masses and ids of the requested dark-matter types in file order with entry k of each array describing the same particle.", "quantifier": "all particle-type counts and requested types", "why_tests_cant": "offset arithmetic over all type counts", "anchors": ["io/gadget2.go: packVec, packMass, unpackMass, packIDs, Read"]}
{"id": "C32", "title": "Positions are wrapped into the box", "statement": "Positions returned by readers lie in [0, TotalWidth) and differ from the stored position by a multiple of the box width.", "quantifier": "all stored positions within one box width of the box", "why_tests_cant": "all real inputs", "anchors": ["io/lgadget2.go: Read", "io/gadget2.go: Read", "io/io.go: fix"]}
{"id": "C33", "title": "Snapshot bounding boxes contain all their particles", "statement": "The Origin/Width computed for a block of particles describes a periodic box which contains every particle of the block, and is never wider than the simulation box.", "quantifier": "all particle sets, in particular sets straddling the periodic boundary", "why_tests_cant": "all particle sets", "anchors": ["io/io.go: boundingBox"]}
{"id": "C34", "title": "Reader open/close discipline", "statement": "A particle buffer refuses a second Read before Close, Close on a closed buffer is refused, and after any legal sequence of Read/Close the buffer is open exactly when the last call was Read.", "quantifier": "all call histories", "why_tests_cant": "histories are unbounded", "anchors": ["io/lgadget2.go", "io/gadget2.go", "io/gotetra.go", "io/bolshoi.go"]}
{"id": "C35", "title": "Sheet segment extraction keeps the grid layout", "statement": "Reading a gotetra sheet segment yields the SegmentWidth^3 sub-cube of the GridWidth^3 stored grid with the same (x,y,z) indexing, and file indices map one to one to cell coordinates.", "quantifier": "all grid and segment widths", "why_tests_cant": "all sizes", "anchors": ["io/gotetra.go: Read, fileCoords"]}
{"id": "C36", "title": "A halo is matched with every file that can contain its particles", "statement": "If a particle file's region contains a point within a halo's radius (periodically), then the halo/file intersection test selects that file for that halo.", "quantifier": "all regions, halo positions, radii, box widths", "why_tests_cant": "real-valued geometry with wrap-around", "anchors": ["los/halo.go: SheetIntersect, inRange", "cmd/shell.go: binIntersections", "cmd/utils.go or cmd/shell.go: sphereSheetIntersect"]}
{"id": "C37", "title": "Halo-centred coordinates are the nearest periodic images", "statement": "Transforming particle positions into a halo's frame moves each coordinate by a multiple of the box width to within half a box width of the halo.", "quantifier": "all positions in the box", "why_tests_cant": "all real inputs", "anchors": ["los/halo.go: Transform", "cmd/stats.go: wrap, massContained"]}
{"id": "C38", "title": "All lines of sight a sphere crosses receive it", "statement": "The range of line-of-sight indices used when inserting a sphere into a ring covers each line of sight whose angle lies in the sphere's angular extent and no line of sight outside it (up to one spoke).", "quantifier": "all numbers of spokes and angles", "why_tests_cant": "wrap-around at 0/2pi", "anchors": ["los/halo.go: idxRange, insertToRing"]}
{"id": "C39", "title": "Angular pixels are in range", "statement": "geom.DiskPixel and geom.SpherePixel return indices between 0 and the number of pixels minus one for every direction, so that arrays sized by DiskPixelNum/SpherePixelNum are never indexed out of range.", "quantifier": "all directions and levels", "why_tests_cant": "all real angles", "anchors": ["los/geom/pixel.go"]}
{"id": "C40", "title": "Plucker coordinates commute with translation", "statement": "Translating a Plucker line (tetrahedron) gives the same coordinates as initialising it from the translated points, and the sign of the Plucker product with another equally translated line is unchanged.", "quantifier": "all lines and translations", "why_tests_cant": "polynomial identity", "anchors": ["los/geom/primitives.go: PluckerVec.Init, Translate, Dot"]}
{"id": "C41", "title": "Linear solves satisfy the system", "statement": "For every non-singular matrix, Matrix.SolveVector(b) returns x with M x = b, Invert returns M^-1, SolveMatrix solves for its argument, Mult is the matrix product, and Determinant is the determinant.", "quantifier": "all sizes and all non-singular matrices", "why_tests_cant": "pivoting order depends on the data", "anchors": ["math/mat/mat.go: LU, factorizeInPlace, SolveVector, forwardSubst, SolveMatrix, MultAt, Determinant"]}
{"id": "C42", "title": "Interpolation passes through the table", "statement": "Linear and bilinear interpolators, built on increasing tables, return for x in range a value between the neighbouring table values (the tabulated value at a knot), never panic in range, and reject x out of range; splines return the tabulated values at the knots and are continuous with continuous first and second derivative.", "quantifier": "all tables and abscissae", "why_tests_cant": "real-valued inputs", "anchors": ["math/interpolate/search.go: search", "math/interpolate/linear_interpolators.go", "math/interpolate/spline.go"]}
{"id": "C43", "title": "The splashback radius is the steepest point", "statement": "analyze.SplashbackRadius reports a radius at which the slope is a local minimum steeper than the threshold, the steepest of those at running density minima, and reports failure when there is none.", "quantifier": "all profiles", "why_tests_cant": "all profiles", "anchors": ["los/analyze/splashback_radius.go: SplashbackRadius"]}
{"id": "C44", "title": "Snapshot grouping is a partition", "statement": "binBySnap groups halos so that each input row appears in exactly one group, under its own snapshot, in input order, and the recorded indices recover the input rows.", "quantifier": "all catalogs", "why_tests_cant": "all catalogs", "anchors": ["cmd/shell.go or cmd/utils.go: binBySnap, binCoeffsBySnap"]}
{"id": "C45", "title": "Halo histories follow the merger tree", "statement": "tree mode returns for each halo its history within the snapshot range with one line per snapshot in the documented format, with the -1 sentinel separating histories.", "quantifier": "all trees", "why_tests_cant": "all trees", "anchors": ["cmd/tree.go", "los/tree/tree.go"]}
{"id": "C46", "title": "coord output columns match their header", "statement": "coord mode writes the requested values in the order named by the header comment.", "quantifier": "all value lists", "why_tests_cant": "all permutations of values", "anchors": ["cmd/coord.go: Run, makeCommentString"]}
{"id": "C47", "title": "Mass/radius conversions are inverse and names round-trip", "statement": "Radius.Radius and Radius.Mass are mutually inverse and monotone; RadiusFromString(r.String()) = r and MassString names the mass definition of the same radius.", "quantifier": "all masses, radii, redshifts, definitions", "why_tests_cant": "real-valued inputs", "anchors": ["cmd/halo/radius.go"]}
{"id": "C48", "title": "Numerical derivatives are exact on low-order polynomials", "statement": "calc.Deriv of order 2 (4) is exact for polynomials of degree <= 2 (<= 4) on uniform grids.", "quantifier": "all polynomials, grids, spacings", "why_tests_cant": "real-valued inputs", "anchors": ["math/calc/deriv.go"]}
{"id": "C49", "title": "prof mode returns a profile for every halo", "statement": "prof mode, on success, outputs one line per input halo with accumulated contributions of every intersecting file.", "quantifier": "all catalogs and file sets", "why_tests_cant": "all catalogs", "anchors": ["cmd/prof.go: Run"]}
{"id": "C50", "title": "Profile binning conserves mass", "statement": "insertPoints/insertPhasePoints put each particle within the radial (and velocity) range into exactly one in-range bin and ignore others, so total binned mass equals the mass in range.", "quantifier": "all particles and bin settings", "why_tests_cant": "real-valued inputs", "anchors": ["cmd/prof.go: insertPoints", "cmd/phase.go: insertPhasePoints"]}
{"id": "C51", "title": "Example configuration files are accepted", "statement": "The example configuration printed for each mode is accepted by that mode's own ReadConfig.", "quantifier": "all modes", "why_tests_cant": "needs running each mode's parser on its example", "anchors": ["cmd/*.go: ExampleConfig, ReadConfig"]}
{"id": "C52", "title": "Smoothing leaves constants and respects boundary rules", "statement": "Convolving with a normalised kernel maps a constant sequence to itself under Periodic, Reflection and Extension boundaries; the periodic rule indexes modulo the length and the reflection rule mirrors.", "quantifier": "all kernels, sequences", "why_tests_cant": "all lengths", "anchors": ["math/interpolate/filter.go: ConvolveAt, Get"]}
{"id": "C53", "title": "An accepted snapshot format can be enumerated", "statement": "When the validation of the global configuration accepts the snapshot format, meanings, block ranges and logging mode, setting up the snapshot file names never crashes the program: it succeeds or reports an unreadable or mis-sized scale factor file.", "quantifier": "all formats, meanings, block ranges, snapshot ranges and scale factor files", "why_tests_cant": "configurations are unbounded", "anchors": ["cmd/cmd.go: validateFormat", "cmd/env/env.go: GetColumn, interleave", "cmd/env/Gadget-2.go: InitGadget2"]}
{"id": "C54", "title": "Halo catalogs are assigned to snapshots from the end of the directory", "statement": "With at least HSnapMax-HSnapMin+1 files in the halo directory, HaloCatalog(s) is, for every snapshot s in the range, the file that is HSnapMax-s places before the last one; with fewer files an error is returned.", "quantifier": "all directory listings and snapshot ranges", "why_tests_cant": "listings are unbounded", "anchors": ["cmd/env/text_halos.go: InitTextHalo", "cmd/env/env.go: HaloCatalog"]}
{"id": "C55", "title": "Rotations between directions are rotations", "statement": "EulerMatrixBetween(v1, v2) is, for all non-zero vectors, an orthogonal matrix of determinant one that takes the direction of v1 to the direction of v2; EulerMatrixBetween(v2, v1) is its inverse; rotating keeps scalar products and so distances. AngularDistance is the length of the shorter arc; AngleInRange tells whether an angle lies on the arc from low to high up to full turns.", "quantifier": "all pairs of non-zero vectors, all angles and arcs", "why_tests_cant": "Continuum of inputs with special cases at poles, opposite vectors and the branch cut; tests only sample a few.", "anchors": ["los/geom/rotation.go: EulerMatrix, EulerMatrixBetween, RotateVec", "los/geom/rotation.go: AngularDistance, AngleInRange"]}
{"id": "C56", "title": "A particle raises exactly the parts of a line of sight it covers", "statement": "Inserting a sphere of density rho into a halo raises each radial bin of each line of sight by rho times the fraction of the bin (bins are equal in log r) that lies in the sphere, and changes nothing else.", "quantifier": "all halos, ring orientations, sphere positions, radii, densities, bin and line counts", "why_tests_cant": "Geometric identity over a continuum of configurations including tangent lines, spheres that contain the origin and the branch cut of the azimuth.", "anchors": ["los/halo.go: Insert, insertToRing, LineSegment", "los/profile_ring.go: Insert, Retrieve"]}
{"id": "C57", "title": "The distance cut before insertion loses nothing", "statement": "A particle that Halo.Intersect rejects for kernel radius r would not change any profile if it was inserted with kernel radius r.", "quantifier": "all halos, particles and radii", "why_tests_cant": "Universally quantified over positions; boundary cases (centre, inner and outer radius) are measure-zero.", "anchors": ["los/halo.go: Intersect, Insert", "cmd/shell.go: chanLoadSphereVec"]}
{"id": "C58", "title": "An interrupted halo cache is never used silently", "statement": "If writing a halo cache file was interrupted at any byte, later calls that need it report an error; they never return ids or values that differ from the catalogue's.", "quantifier": "all catalogues, all crash points, all requests", "why_tests_cant": "every prefix length of every file must be considered", "anchors": ["cmd/memo/memoize.go: readRockstar, ReadSortedRockstarIDs", "cmd/halo/io.go: RockstarConvert, RockstarConvertTopN, binaryColGetter"]}
{"id": "C59", "title": "Exclusion, neighbours and repetition in the id mode", "statement": "With ExclusionStrategy = overlap exactly the selected halos inside ExclusionRadiusMult*R200m of a heavier halo are removed; with neighbor each selected halo is followed by the lighter halos in its radius; every printed row appears Mult times in a row.", "quantifier": "all catalogues, selections, radii and box widths", "why_tests_cant": "periodic geometry and rank bookkeeping over unbounded catalogues", "anchors": ["cmd/id.go: findOverlapSubs, readSubIDs, Run", "cmd/halo/finder.go"]}
{"id": "C60", "title": "Bolshoi and BolshoiP files are decoded in file order", "statement": "Reading a Bolshoi or BolshoiP file, in whatever number of blocks and in either byte order, yields position (Mpc/h), velocity (times the scale factor), mass and id of every particle of the file's own cell, in file order, each with its own values, and the header describes that cell.", "quantifier": "all divisions into blocks, all particles, both byte orders, all previous contents of the buffer", "why_tests_cant": "all block structures", "anchors": ["io/bolshoi.go: Read, fortranRead", "io/io.go: readBolshoiParticleAsByte", "io/bolshoiP.go: Read, ReadHeader"]}
{"id": "C61", "title": "The files of a Bolshoi snapshot partition the particles", "statement": "Files overlap at their boundaries, and the cut to the cell of the file keeps every particle of the box exactly once over all files.", "quantifier": "all positions in the box, all cell numbers", "why_tests_cant": "all positions, in particular cell boundaries", "anchors": ["io/bolshoi.go: ReadHeader, filterBolshoiParticles, bolshoiInRange", "io/bolshoiP.go: vecInRange"]}
{"id": "C62", "title": "Damaged particle files are not read silently", "statement": "A particle file that cannot be opened or ends too early gives an error or a panic, never particles that are not in the file.", "quantifier": "all files and all previous contents of the buffers", "why_tests_cant": "all truncation points", "anchors": ["io/io.go: read*AsByte", "io/gotetra.go: readSheetPositionsAt", "io/lgadget2.go: readLGadget2Particles", "io/gadget2.go: readGadget2Particles"]}
{"id": "C63", "title": "Ray-tetrahedron intersections are on the ray and on the tetrahedron", "statement": "When IntersectionDistance reports an intersection, the points on the ray at the two distances lie on faces of the tetrahedron; every ray with a unit direction through a point inside of a tetrahedron that is not flat is reported, with one intersection on each side of the point, the entry first for tetrahedra oriented with Orient(+1).", "quantifier": "all tetrahedra and rays", "why_tests_cant": "all positions, including rays through edges and vertices", "anchors": ["los/geom/intersection.go: IntersectionBary, IntersectionDistance", "los/geom/primitives.go: Distance, PluckerTetra.Init, Orient"]}
{"id": "C64", "title": "Sphere predicates are exact", "statement": "VecIntersect, SphereIntersect, SphereContain, TetraContain, TetraIntersect and LineSegmentIntersect answer exactly whether the point is in the sphere, the spheres have a common point, the sphere contains the sphere or tetrahedron, they have a common point, and where the line meets the sphere; BoundingSphere contains the tetrahedron; Volume does not depend on position or vertex order; Orient only reorders the vertices and gives the orientation asked for.", "quantifier": "all spheres, tetrahedra, points and segments", "why_tests_cant": "all real positions", "anchors": ["los/geom/primitives.go: Sphere methods, Tetra.Volume, BoundingSphere, Orient"]}
{"id": "C65", "title": "Cubic grid interpolators have no memory", "statement": "The value of BiCubic.Eval and TriCubic.Eval depends only on the grid and on the arguments, not on the evaluations made before (the splines that are kept between calls are never stale), and at grid points it is the grid value. (A panic that is recovered from does leave stale splines behind; this is shown separately.)", "quantifier": "all grids, all sequences of evaluations", "why_tests_cant": "depends on the history of calls; a test sees a few orders of calls", "anchors": ["math/interpolate/cubic_interpolators.go: BiCubic.Eval, TriCubic.Eval, initSplines"]}
{"id": "C66", "title": "Savitzky-Golay kernels reproduce polynomials", "statement": "NewSavGolKernel(order, width) gives weights for which the weighted sum of the values of any polynomial of degree <= order on a uniform grid is its value at the centre (the value of the least-squares fit for arbitrary data); NewSavGolDerivKernel gives the requested derivative.", "quantifier": "all orders, odd widths, spacings, derivative orders, polynomials and data", "why_tests_cant": "holds for every width/order/polynomial; tests tabulate a few widths", "anchors": ["math/interpolate/filter.go: NewSavGolKernel, NewSavGolDerivKernel, savgol", "math/mat/mat.go: LU, SolveVector"]}
{"id": "C67", "title": "Profile smoothing does not depend on earlier calls", "statement": "analyze.Smooth gives the smoothed profile and its logarithmic slope (exact for power laws in the interior), leaves its input unchanged, and its result does not depend on the profiles that were smoothed before.", "quantifier": "all profiles, windows and histories of calls", "why_tests_cant": "depends on the history of calls through a global cache", "anchors": ["los/analyze/smooth.go: Smooth, getSmoothingKernel"]}
{"id": "C68", "title": "Tables are transposed exactly", "statement": "The per-halo tables that the modes turn into output columns are transposed entry by entry; transposing twice gives the table back; only empty tables and tables with short rows crash.", "quantifier": "all tables", "why_tests_cant": "all table sizes and contents", "anchors": ["cmd/shell.go: transpose"]}
{"id": "C69", "title": "Halo values are found under their configured names", "statement": "A value named in HaloValueNames is read from the table column listed with it; a radius R200m/R200c/R500c/R2500c that is not listed is computed from the mass of the same definition when that mass is listed, such that the mean density inside it is the overdensity of the definition; all other names are unknown.", "quantifier": "all configurations with distinct value names, all halo tables, cosmologies and units", "why_tests_cant": "ranges over all name lists, column lists and real-valued masses", "anchors": ["cmd/halo/io.go: NewVarColumns, GetColumn", "cmd/halo/radius.go"]}
{"id": "C70", "title": "Mode parameters are validated", "statement": "A mode runs only with parameters in their documented ranges: ReadConfig succeeds exactly for files and flags that can be parsed and whose resulting values meet the mode's documented conditions (positive counts, ordered radii, known strategies and types, odd smoothing window, ordered mass limits), whether the values come from a file, flags or the defaults.", "quantifier": "all configuration files, flag lists and modes", "why_tests_cant": "every file and flag list; unchecked combinations only show on particular values", "anchors": ["cmd/id.go:validate", "cmd/shell.go:validate", "cmd/stats.go:validate", "cmd/prof.go:ReadConfig", "cmd/phase.go:ReadConfig", "cmd/potential.go:validate", "cmd/check.go:ReadConfig"]}
{"id": "C71", "title": "The global configuration is validated", "statement": "GlobalConfig.ReadConfig succeeds exactly when the settings are complete for the chosen formats: a version that is not later than the source, known types, units and byte order, usable directories for the catalogs and trees that are used, the columns ID, X, Y, Z and M200m, all NilSnap* values for a nil snapshot, and a documented logging mode; settings of formats set to nil are not needed.", "quantifier": "all global configuration files and states of the directories", "why_tests_cant": "all combinations of settings", "anchors": ["cmd/cmd.go:GlobalConfig.ReadConfig", "cmd/cmd.go:validate", "cmd/cmd.go:validateDir", "version/version.go"]}
{"id": "C72", "title": "Statistics of a shell describe the sampled shell", "statement": "For every shell and every sequence of random numbers with at least one sample: the volume is between the volumes of the balls with the smallest and largest radius of the shell, and the mean and median radius are between these radii; for a sphere they are exact; enlarging the shell by c multiplies volumes by c^3, areas by c^2 and radii by c; a shell inside of another one has no larger volume; the radial range contains the radius of the shell in every direction; the volume between two shells and the largest distance are those of the two shells; the radius histogram is the density of the radii in its bins and integrates to one; a point is contained exactly when it is nearer to the center than the shell in its direction.", "quantifier": "all shells (functions of two angles), all sequences of random numbers, all numbers of samples and bins, all ranges", "why_tests_cant": "the results depend on random numbers and on an arbitrary function; tests compare a few shells with loose tolerances and cannot rule out wrong factors or bins", "anchors": ["los/analyze/shell.go: Volume, MeanRadius, MedianRadius, SurfaceArea, DiffVolume, MaxDiff, RadialRange, RadiusHistogram, Contains, CartesianSampledVolume"]}
{"id": "C73", "title": "Angular fraction profile is the fraction of directions inside the shell", "statement": "For every shell, range of radii and number of bins, the value of the angular fraction profile at each radius is the fraction of the sampled lines of sight whose shell radius is at least that radius: it is at most one, never increases with radius, and is a number.", "quantifier": "all shells, all sequences of random numbers, all ranges and numbers of bins", "why_tests_cant": "shells may leave the range of radii in any set of directions; tests only use shells inside of the range", "anchors": ["los/analyze/shell.go: AngularFractionProfile", "cmd/prof.go: angularFractionMain"]}
{"id": "C74", "title": "Axes of a shell are those of its moments of inertia", "statement": "For every shell the three axes are computed from the inertia tensor of its surface about its center of mass, are sorted from the longest to the shortest, and the direction that is returned is the direction of the longest axis.", "quantifier": "all shells, all samples, all eigenvalue decompositions (any order of the eigenvalues)", "why_tests_cant": "the order of the eigenvalues depends on the shell and the numerical library; a test on one orientation exercises one of the orders", "anchors": ["los/analyze/shell.go: Axes, trisort"]}
{"id": "C75", "title": "Penna-Dines shells: evaluation and least squares fit", "statement": "For every order and all coefficients, the shell function is the polynomial of the direction with these coefficients and does not depend on the choice of angles; for every set of points that determines the coefficients, the fitted coefficients are the unique ones with the least squared radial error, and points that lie on a Penna-Dines shell (also when given in the planes of rings) return exactly its coefficients; the order of a shell is recovered from its number of coefficients; a set of points that does not determine the coefficients is reported.", "quantifier": "all orders, coefficient lists, directions, and lists of points", "why_tests_cant": "the fit must work for every arrangement of points; tests fit a few shells at a few orders and do not compare with all other coefficient lists", "anchors": ["los/analyze/penna.go: PennaCoeffs, PennaFunc, PennaVolumeFit, pinv", "cmd/stats.go: findOrder", "math/mat/mat.go: VecMult, Transpose"]}
{"id": "C76", "title": "Filtering of candidate points by the density tree", "statement": "For every set of candidate points in polar coordinates the density tree finds the maxima of the radial density estimate in 1, 2, 4, ... angular bins, connects them from level to level, and its curve passes through the connected maxima; filtering keeps exactly the points whose distance from that curve is less than the width, in their order; a ring that cannot be filtered is reported by ok = false.", "quantifier": "all lists of radii and angles, all numbers of levels, all smoothing widths, all lists of rings", "why_tests_cant": "the connection of maxima depends on the whole arrangement of points; tests look at a few examples", "anchors": ["los/analyze/kde.go: GaussianKDE, NewKDETree, binByTheta, localSplineMaxes, connectMaxes, FilterNearby, GetRFunc", "los/analyze/penna.go: FilterPoints"]}
{"id": "C77", "title": "Candidate points of the lines of sight", "statement": "For every halo and ring the buffer has, after the search, for every line of sight independently of the others whether it has a point of steepest slope, and then its radius, angle, position in the plane and position in the volume, which are the same point; the result does not depend on what the buffer was used for before; rings with a candidate can be filtered.", "quantifier": "all halos, rings, profiles, windows, slope limits and earlier contents of the buffer", "why_tests_cant": "the buffers are reused from halo to halo, so every history of earlier halos must give the same result", "anchors": ["los/analyze/ring_buffer.go: Init, Clear, Splashback, OkPlaneCoords, OkPolarCoords", "los/halo.go: GetRs, GetRhos, LineSegment", "cmd/shell.go: calcCoeffs"]}
{"id": "C78", "title": "The stats mode counts, for every row, the particles inside its shell", "statement": "For every catalog of halos and shells, every set of snapshot files, every number of threads and every schedule, the M_sp of a row is the total mass of the particles of its snapshot that lie inside the row's shell, whatever the other rows of the catalog are, and the shell particle file lists exactly the ids of the particles within the shell width of the shell (or inside it, when the width is negative); rows of the marker snapshot -1 and runs with SkipMass give 0. R_sp is the radius of the sphere with the volume of the shell. The code satisfies it only when the shell stays inside the catalog radius, the sampled radial range covers the shell, no displacement needs wrapping and the width does not exceed the shell; the failures are proved as _false theorems.", "quantifier": "all catalogs, snapshots, files, particles, shells, sampled directions, thread counts and schedules", "why_tests_cant": "The result depends on every schedule of the workers, on the layout of the files and on the other rows of the catalog; a test fixes one of each.", "anchors": ["cmd/stats.go:StatsConfig.Run", "cmd/stats.go:massContained", "cmd/stats.go:massContainedChan", "cmd/stats.go:appendShellParticles", "cmd/stats.go:appendShellParticlesChan", "cmd/stats.go:wrap", "cmd/stats.go:rangeSp", "cmd/stats.go:binSphereIntersections"]}
{"id": "C79", "title": "The potential maps are the potential of the halo's particles at the listed coordinates", "statement": "For every catalog, every set of snapshot files, every number of threads and every interleaving of the loads and stores of the workers, each cell of the three maps of a row is the gravitational potential, in units of G M / R, of the particles of the row's snapshot between RMinMult and RMaxMult times the radius of the halo, at the point whose coordinates the R columns give; no update is lost. The code computes the potential at other points: the axes are mirrored and the spacing of R is wrong, for every grid; displacements are not wrapped at the edge of the box; the default RMinMult = RMaxMult = 1 uses no particles except those exactly at the radius.", "quantifier": "all configurations, catalogs, files, particles, random choices, thread counts and interleavings", "why_tests_cant": "The workers update shared arrays without locks; only an argument over all interleavings shows that no update is lost, and a test of one symmetric halo cannot see the mirrored axes.", "anchors": ["cmd/potential.go:PotentialConfig.Run", "cmd/potential.go:insertPotentialPoints", "cmd/potential.go:processPotential", "cmd/utils.go:LockGroup"]}
{"id": "C80", "title": "The shell mode analyses, for every row, the densities of that row's own particles", "statement": "For every catalog, every set of snapshot files and every number of threads, each output row of the shell mode is the analysis (coefficients or percentile profile) of a halo whose lines of sight hold exactly the kernel spheres of every SubsampleFactor^3-th particle of the row's snapshot that reaches the shell between RMinMult and RMaxMult radii, at the periodic image nearest to the halo, whatever other rows are in the catalog and in whatever order the files are. The planes of the rings are given by unit vectors, and are determined by the seed. In the code, the lowest density of a profile is scaled with the mean density of the first (smallest) snapshot, so it does depend on the other rows; a row with radius <= 0 or with the snapshot marker -1 stops the whole run.", "quantifier": "all configurations, catalogs, disks of snapshot files, particles, thread counts and seeds", "why_tests_cant": "Particles are moved in place between halos and the workers share split halos; that no halo's spheres leak into another's profile must hold for every catalog and every assignment of particles to files.", "anchors": ["cmd/shell.go:ShellConfig.Run", "cmd/shell.go:loop", "cmd/shell.go:createHalos", "cmd/shell.go:loadSphereVecs", "cmd/shell.go:haloAnalysis", "cmd/shell.go:normVecs", "cmd/shell.go:binIntersections"]}
{"id": "C81", "title": "The percentile, median and mean profiles of a halo are those of all its lines of sight", "statement": "For every halo, number of rings, of lines of sight and of bins, and every percentile from 0 to 100, the profile of the shell mode never panics; it lists the centers of the radial bins in increasing order, each inside of its bin, then for every bin the density at that percentile over all lines of sight of all rings, where no density is below the background density. The median profile has the median, the mean profile the mean. In the table that is printed, entry x of row y is entry x of the profile of row y. In the code the percentiles are counted from the largest density (100 gives the minimum), the median of an odd number of lines is one rank too high, and a blank row breaks the table.", "quantifier": "all halos, densities, percentiles, numbers of rings, lines of sight and bins, all tables", "why_tests_cant": "The percentile is a selection by partial sorting over a buffer shared by all lines; that it has the right rank must hold for every order and every multiplicity of the densities.", "anchors": ["cmd/shell.go:calcPercentile", "cmd/shell.go:transpose", "los/halo.go:MedianProfile", "los/halo.go:MeanProfile", "math/sort/sort.go:Percentile"]}
{"id": "C82", "title": "Median profiles of the prof mode, their bootstrap errors and angular fractions", "statement": "For every halo, set of particles, pixel level and percentile, a median profile lists the centers of the radial bins and, for every bin, the density at the percentile over all pixels of the sphere, where the density of a pixel is the mass of the particles in it over its volume. The error profile has the standard deviation of that percentile over the lists that were drawn: at most half of the range of the pixel densities, zero for one sample. Each row of the angular fractions belongs to its own shell and radius. In the code percentiles are counted from the largest value, and with Samples = 0 every error is NaN.", "quantifier": "all halos, particles, pixel levels, percentiles, random draws and shells", "why_tests_cant": "The errors come from random draws: the bounds must hold for all draws and all densities.", "anchors": ["cmd/prof.go:insertMedianPoints", "cmd/prof.go:processMedianProfile", "cmd/prof.go:processMedianErrorProfile", "cmd/prof.go:bootstrapErrorPercentile", "cmd/prof.go:angularFractionMain"]}
{"id": "C83", "title": "Options that are not set have their documented defaults", "statement": "In every mode, whatever configuration file and flags the run is started with, an option that neither of them sets has the default value that the mode's documentation states.", "quantifier": "all modes, all configuration files, all flag lists, all documented options", "why_tests_cant": "the files and flag lists are unbounded; each test fixes one", "anchors": ["cmd/id.go: ReadConfig, ExampleConfig", "cmd/tree.go", "cmd/stats.go", "cmd/shell.go", "cmd/prof.go", "cmd/phase.go", "cmd/coord.go", "cmd/check.go", "parse/config.go: ReadConfig, ReadFlags"]}
{"id": "C84", "title": "The check mode reports exactly the stated values that disagree with the simulation", "statement": "The check mode passes if every value stated in its configuration (H0, OmegaM, OmegaL, box width, particle masses, particle count, mass of an example halo) agrees with the simulation to ten percent (the count exactly), and otherwise lists exactly the values that do not.", "quantifier": "all simulations and all check configurations", "why_tests_cant": "quantifies over all particle sets, headers and stated values", "anchors": ["cmd/check.go: Run, headerChecks, particleChecks, haloChecks, addMass, checkAlmostEq"]}
{"id": "C85", "title": "Failures are passed on along a pipe of commands", "statement": "When commands are piped together and one of them fails, that command prints no part of a catalog and every later command of the pipe fails too, ending with status 1; when a command succeeds, the next one runs on exactly the catalog it printed.", "quantifier": "all pipes of any length, all command lines, all outcomes of the steps", "why_tests_cant": "quantifies over pipes of any length and all failures of all steps", "anchors": ["shellfish.go: main, getFlags, getConfig, getGlobalConfig, initHalos", "cmd/cmd.go: ModeNames"]}
{"id": "C86", "title": "Plane slices of a tetrahedron are its cross-sections", "statement": "Slicing a tetrahedron with a horizontal plane never crashes; the corners of the slice are exactly the points where the plane crosses the edges, the region they span is exactly the cross-section of the tetrahedron with the plane, and the sides of the slice join neighbouring corners around it. A slice is made whenever the plane passes through the tetrahedron. Asking a slice for the sides that a ray from the origin at an angle passes through returns the one or two sides the ray crosses, the angular range of the slice contains the angle of every one of its points and nothing wider than needed, and its squared radii are the smallest and the largest squared distance of its points from the origin.", "quantifier": "all tetrahedra, all heights of the plane, all earlier contents of the reused slice, all angles", "why_tests_cant": "quantifies over all tetrahedra, planes and ray directions", "anchors": ["los/geom/intersection.go: ZPlaneSlice, IntersectZPlane, TetraSlice.link, linkPoints, edgeToIndex, IntersectingLines, AngleRange, RSqrMinMax"]}
{"id": "C87", "title": "Lines pass through their points and Solve finds where they meet", "statement": "A line made from two different points passes through both; making a line from two points that coincide is refused and changes nothing. Solving two lines returns the point that is on both, and reports failure exactly when they are parallel. A line made from a ray contains the projection of that ray on the plane.", "quantifier": "all pairs of points, all pairs of lines, all earlier contents of a reused line, all rays", "why_tests_cant": "quantifies over all real coordinates and over histories of the reused line", "anchors": ["los/geom/lines.go: Line.Init, InitFromPlucker, Solve, AreParallel"]}
{"id": "C88", "title": "Platonic solids are regular and their unique normals name every plane once", "statement": "A Platonic solid is made exactly for 4, 6, 8, 12 and 20 sides and has that many faces. The faces are the faces of a regular convex polyhedron around the origin: equally many vertices per face, equal sides, all vertices on one sphere, every side shared by exactly two faces, every other vertex behind each face, and the normals have length one and are perpendicular to their faces. The unique normals contain exactly one normal for each plane through the origin that is parallel to a face.", "quantifier": "all solids, all faces and sides, exact real coordinates", "why_tests_cant": "the claim is about exact real coordinates (with the golden ratio and the root of two), all pairs of faces and all points of the planes, not about a sample of them", "anchors": ["los/geom/platonic.go: Sides, NewPlatonicSolid, NewUniquePlatonicSolid, FaceVertices, Normals, UniqueNormals"]}
{"id": "C89", "title": "Sampled volumes and mean radii are unbiased and converge", "statement": "For every bounded measurable shell with nonnegative radii, and independent uniform random numbers: the set of points that Contains accepts has a finite volume; for every number of samples the expected value of Volume is this volume, the expected value of MeanRadius is the mean radius over the sphere, and the expected value of CartesianSampledVolume (for a cube that contains the shell) is the volume too; and as the number of samples grows, the results converge to these values with probability one. Every fitted shell without negative radii is such a shell.", "quantifier": "all bounded measurable shells, all probability spaces with independent uniform draws, all sample counts, almost all sequences of draws", "why_tests_cant": "a claim about expected values and limits over all sequences of random numbers; a test sees one sequence and needs a tolerance that hides wrong weights of the directions", "anchors": ["los/analyze/shell.go: randomAngle, Volume, MeanRadius, CartesianSampledVolume, Contains", "los/analyze/penna.go: PennaFunc"]}
{"id": "C90", "title": "The shell particle file holds the particles near the shells", "statement": "When stats is asked for a shell particle file and ends normally, the file exists and reads back as exactly the snapshots, the halo ids and the particle lists of the catalog; if data was lost on the way to the disk, this is noticed when the file is read back and the run fails. (False as coded: the error of the writer is dropped, so stats ends normally with a damaged or missing file, and a run that does not compute masses silently writes no file. The writer itself reports nil only if the file holds the data, and on a disk that keeps what is written the file always holds it.)", "quantifier": "all catalogs, all byte orders, all file systems (creation fails, opening fails, or any number of bytes is kept)", "why_tests_cant": "tests run on a disk that works; the claim is about every place at which a write can be cut short and about all catalogs", "anchors": ["cmd/stats.go: writeShellParticles, int64sEq, Run", "io/filter_data.go: WriteFilter, ReadFilter"]}
{"id": "C91", "title": "An ARTIO snapshot is read completely, block by block", "statement": "For every ARTIO fileset and every history of calls on the buffer, reading block k returns exactly the N-body particles of the cells of this block, in Mpc/h and Msun/h, and all blocks together return every N-body particle exactly once; the fileset and the block are found in every file name; MinMass is the smallest mass of the N-body species; the header has the number of particles that Read returns, the cosmology and a box that holds all particles; a fileset without N-body particles and a fileset that cannot be read give an error. (False as coded: a buffer made for one fileset returns the particles of this fileset when it is asked for a block of another one; a fileset without N-body species is accepted; ReadHeader drops the error of Read and crashes.)", "quantifier": "all filesets, file names, blocks, particle species, histories of Read, ReadHeader and Close", "why_tests_cant": "there is no ARTIO data in the repository; the claim is about all filesets and about the state the buffer keeps between calls", "anchors": ["io/artio.go: NewARTIOBuffer, parseARTIOFilename, Read, nBodyFlags, ReadHeader, MinMass", "io/io.go: boundingBox"]}
{"id": "C92", "title": "What a reader reports about a file agrees with the particles it returns", "statement": "ReadHeader's particle number, box and cosmology describe exactly the particles that Read returns; positions are wrapped and units converted, every mass is at least MinMass, and the masses of a uniform simulation add up to the mean matter density times the volume of the box.", "quantifier": "all files of the formats (LGadget-2, Gadget-2, gotetra, Bolshoi, BolshoiP), all particles, all previous buffer contents", "why_tests_cant": "all files, counts and cosmologies", "anchors": ["io/lgadget2.go: NewLGadget2Buffer, Read, ReadHeader, MinMass, TotalParticles", "io/gadget2.go: Read, ReadHeader, MinMass", "io/gotetra.go: NewGotetraBuffer, calcUniformMass, Read, ReadHeader", "io/bolshoi.go, io/bolshoiP.go: MinMass, ReadHeader", "cmd/shell.go: createHalos"]}
{"id": "C93", "title": "Ring normals are independent and uniform on the sphere", "statement": "With an ideal uniform generator, the ring normals that `shell` draws (for a number of rings other than 3) are independent, each is uniform on the sphere (the probability of a set of directions is the share of the unit ball in these directions, the same for every orientation), and the rejection loop ends with probability one.", "quantifier": "every number of rings, every list of measurable sets of directions, every rotation, every probability space with independent uniform draws", "why_tests_cant": "A test sees finitely many draws; uniformity and independence are statements about every measurable set of directions and about the infinite sequence of draws of a loop without a bound.", "anchors": ["cmd/shell.go:normVecs", "math/rand/rand.go:Uniform"]}
{"id": "C94", "title": "The cache directory stays consistent over any history of runs", "statement": "Whatever runs use a cache directory, one after another, interrupted at any point or at the same time, the files in it were all written with the same settings, a run that is accepted reuses only files written with its own settings, a refused run changes nothing, and an interrupted run can be repeated.", "quantifier": "all configuration files, all sequences of runs, all points of interruption, all interleavings of two runs", "why_tests_cant": "histories, crash points and schedules are unbounded", "anchors": ["shellfish.go: checkMemoDir, copyFile, configEqual, main"]}
{"id": "C95", "title": "Rounding never moves an accepted value out of its table", "statement": "In float64 arithmetic, with its rounding: a position in the box gets a cell of the halo grid; a plateau inserted into the ring of a line of sight changes that line only; a radius or angle accepted by prof, phase and the boundary search gets an existing bin; a value accepted by an interpolator on a uniform grid gets an interval of that grid; and the random number generators return values of their half-open range.", "quantifier": "all float64 values, box widths, numbers of bins and cells, ranges", "why_tests_cant": "the failing values are single floating point numbers next to a boundary, for some bin counts only", "anchors": ["cmd/halo/grid.go: NewGrid, Insert", "los/profile_ring.go: Init, Insert", "cmd/prof.go: insertPoints", "cmd/phase.go", "los/analyze/kde.go: binByTheta", "math/interpolate/search.go: unifInit, search", "math/rand/rand.go: Uniform, UniformInt"]}
{"id": "C96", "title": "Rows keep their identity and their order along a pipe", "statement": "The rows printed by id, tree, coord, shell, stats, prof, phase and potential are the halos that were selected or piped in: the same (ID, snapshot) pairs, in the same order, none lost, added or repeated. A pipe of any number of these tools whose last command ends with status 0 printed either nothing at all or exactly the halos that went in.", "quantifier": "all catalogs, configurations, results of the numerical parts, and pipes of any length", "why_tests_cant": "it ranges over all catalogs, all pipes and all results of the numerical parts", "anchors": ["cmd/shell.go: Run", "cmd/stats.go: Run", "cmd/prof.go: Run", "cmd/phase.go: Run", "cmd/potential.go: Run", "cmd/coord.go: Run", "cmd/tree.go: Run", "cmd/id.go: Run", "cmd/catalog/catalog.go: FormatCols, Parse", "shellfish.go: main"]}
{"id": "C97", "title": "The header describes the columns", "statement": "The header line printed by shell, stats, prof, phase and potential names every column of the rows below it: the ranges of column numbers it announces are consecutive from 0, cover each row exactly, and hold the quantity named.", "quantifier": "all catalogs, bin counts, orders and results of the numerical parts", "why_tests_cant": "it ranges over all combinations of bin counts and orders", "anchors": ["cmd/catalog/catalog.go: CommentString, FormatCols", "cmd/shell.go: Run", "cmd/stats.go: Run", "cmd/prof.go: Run", "cmd/phase.go: Run", "cmd/potential.go: Run"]}
{"id": "C98", "title": "stats and prof analyse the shells that shell found", "statement": "When stats, or a profile of prof that uses the shells, reads what shell printed, it computes with the ids, snapshots, coordinates and shell coefficients of each halo (up to one printing of the numbers), whatever the Orders; a catalog that does not fit the Order of the reader is refused with a message, and so is an empty catalog.", "quantifier": "all catalogs, shells, and pairs of Orders", "why_tests_cant": "it ranges over all catalogs and pairs of configurations of two programs", "anchors": ["cmd/shell.go: Run", "cmd/stats.go: Run", "cmd/prof.go: Run", "cmd/catalog/catalog.go: Parse"]}
{"id": "C99", "title": "What is kept from halo to halo does not influence the shells", "statement": "The shell mode reuses its line-of-sight buffers, its workers' halos and its smoothing kernels for all halos of a run. Its output is nevertheless that of a program which analyses every halo alone, with fresh buffers and kernels: row k of the output is a function of the particles around halo k (and the mean density of the first snapshot) only, the run fails exactly when the analysis of some halo alone fails, and neither the number of threads nor the order of the catalog changes the shell of a halo.", "quantifier": "every catalog, every set of particle files, every configuration, every number of threads, every order of the halos", "why_tests_cant": "stale data in a reused buffer shows only for particular sequences of halos (a halo with a missing caustic after one that has it); all sequences of halos must be covered", "anchors": ["cmd/shell.go: loop, sphereLoop, haloAnalysis, calcCoeffs", "los/analyze/ring_buffer.go: Clear, Splashback", "los/analyze/smooth.go: smoothingKernel cache", "los/analyze/penna.go: FilterPoints"]}
{"id": "C100", "title": "The number of threads is the one that was set", "statement": "Every parallel section of the shell, stats, prof and potential modes is run by exactly Threads threads if Threads is positive and by one thread per core otherwise, whatever the runtime was set to before and however many sections ran before it.", "quantifier": "every value of Threads, every number of cores, every earlier setting of GOMAXPROCS, every number of sections", "why_tests_cant": "the number of workers depends on the setting of the process that earlier calls (and the environment) leave behind; a test on a machine with as many cores as threads cannot see the difference", "anchors": ["cmd/stats.go: massContained, appendShellParticles", "cmd/shell.go: loop, loadSphereVecs", "cmd/prof.go: Run", "cmd/potential.go: Run", "cmd/cmd.go: Threads"]}
{"id": "C101", "title": "Repeated runs give the same numbers", "statement": "Two runs of a mode on the same input give bit-identical results whatever the scheduler does, in floating point arithmetic, where addition is not associative: the densities, profiles and maps of the shell, prof and potential modes depend only on the number of threads, and the masses and particle lists of the stats mode are the same in every run.", "quantifier": "every schedule, every number of threads, every number of particles, every arithmetic (nothing is assumed of the operation), and float64 in particular", "why_tests_cant": "the order in which goroutines finish is not under the control of a test; differing orders show up rarely and in the last bits only", "anchors": ["cmd/stats.go: massContained, massContainedChan, appendShellParticles", "cmd/shell.go: loadSphereVecs, chanLoadSphereVec", "cmd/prof.go: Run", "cmd/potential.go: insertPotential", "cmd/utils.go: LockGroup"]}
{"id": "C102", "title": "Rounding does not lose particles from a file's bounding box", "statement": "The bounding box that is computed for the particles of a file, in the single precision arithmetic of the code, contains each of the particles, so that the file is read for every halo whose sphere contains one of them.", "quantifier": "every block of float32 positions of any length in a box of any width, every halo", "why_tests_cant": "the error accumulates over millions of particles in particular orders; tests use short blocks and compare in exact arithmetic", "anchors": ["io/io.go:boundingBox", "los/geom/region.go:SphereSheetIntersect", "io/lgadget2.go"]}
{"id": "C103", "title": "Halo ids survive the catalogue", "statement": "A halo id that is in the catalogue selects the halo's own row when it is requested, and an id that is not in the catalogue selects no row.", "quantifier": "every catalogue with different ids, every requested id", "why_tests_cant": "ids of test catalogues are small; the property must hold for all 64-bit ids", "anchors": ["cmd/halo/io.go:GetIDs", "cmd/memo/memoize.go:readRockstar", "cmd/memo/memoize.go:IntFinder"]}
{"id": "C104", "title": "The files of a Bolshoi snapshot partition the box in single precision", "statement": "In the float32 arithmetic of the Bolshoi and BolshoiP readers, every particle position in the box is inside the region of exactly one file of the snapshot, so that no particle is dropped or returned twice.", "quantifier": "every box width, every number of cells per dimension, every float32 position", "why_tests_cant": "depends on the rounding of i*(box/n) and of origin+width for particular n and i; tests use one grid", "anchors": ["io/bolshoi.go:ReadHeader", "io/bolshoi.go:bolshoiInRange", "io/bolshoiP.go:vecInRange"]}
{"id": "C105", "title": "Printed numbers are read back to six digits and do not drift along a pipe", "statement": "Whatever finite float64 a mode prints, the text is a decimal number nearest to it among those with six significant digits, and a mode that reads the text gets the float64 nearest to that number: the relative change is at most 5.001 parts in a million. Printing what was read gives the same text again, so that passing a catalogue through further modes changes its float columns no more; integer columns are read back exactly.", "quantifier": "every number of magnitude below 2^1023, every catalogue of integer and float columns, every order of the columns, every comment block", "why_tests_cant": "The rounding to decimal, the choice between the two notations, the removal of trailing zeros and the rounding back to binary interact at powers of ten and at ties; the claim is for every number.", "anchors": ["cmd/catalog/catalog.go: FormatCols, formatFloatCol, Parse", "cmd/shell.go: ShellConfig.Run", "cmd/coord.go: CoordConfig.Run"]}
{"id": "C106", "title": "Commands that run at the same time do not spoil each other's cache files", "statement": "The processes of a shell pipe may be scheduled in any way: the output of the last one, the disk and the cache files are those of the commands run one after the other, and the pipe cannot get stuck. However many commands look for, make and read the same cache file at the same time, the file holds the complete content once they are all through, and a command that finds a cache file goes on with its whole content.", "quantifier": "every number of commands, every schedule of their steps, every content of the cache file, every pipe", "why_tests_cant": "The number of interleavings of the steps of several processes has no bound and a test cannot choose the schedule.", "anchors": ["cmd/memo/memoize.go: ReadHeaders, readRockstar", "cmd/halo/io.go: RockstarConvert, binaryColGetter", "shellfish.go: main"]}
{"id": "C107", "title": "Sorting copes with every float64", "statement": "sort.Quick, sort.Shell, sort.NthLargest, sort.Median and sort.Percentile accept every slice of float64, with NaN, infinities and both zeros in any place: the sorts end without a panic and keep exactly the values, the order statistics return one of the values. A slice without NaN is sorted by value, and the n-th largest value has that rank. A NaN does not disturb the order of the other values.", "quantifier": "every length, every content, every place of NaN, infinities and zeros of both signs, every rank", "why_tests_cant": "The bounds of the partition loops rest on sentinels that are found by comparisons; comparisons with NaN are all false, and NaN can stand in any of unboundedly many places.", "anchors": ["math/sort/quick.go: Quick, partition, sort3", "math/sort/shell.go: Shell", "math/sort/median.go: NthLargest, Median, Percentile"]}
{"id": "C108", "title": "The subhalo search is right in float64 arithmetic", "statement": "With coordinates, radii and box width rounded to float64 at every step, inserting a catalogue of positions in the box into a grid and calling FindSubhalos does not panic; Subhalos(i) lists, ascending and each once, exactly the later halos that pass the program's own distance test (whatever cells they fell into), Hosts is the converse and the counts agree. The test accepts every halo inside the scaled radius and rejects every halo outside of it, except within a few roundings of the box width. The caller's radii are unchanged afterwards.", "quantifier": "every number of cells, every box width, every catalogue of float64 positions and radii, every multiplier", "why_tests_cant": "Cell numbers are rounded quotients of rounded differences; a halo is lost only when the roundings of its position, of the search bounds and of the cell width fall on different sides of a cell boundary or of the periodic boundary, which happens for isolated values among 2^64.", "anchors": ["cmd/halo/finder.go: SphereBounds, FindSubhalos, markSubhalos, cumulativeMax, crossMatch", "cmd/halo/grid.go: NewGrid, Insert, ReadIndexes"]}
{"id": "C109", "title": "Sobol points fill squares and cubes evenly", "statement": "The points of a Sobol sequence are spaced evenly in more than one dimension: for any two coordinates, in every aligned block of 2^p successive points, every box of a dyadic grid with 2^(p-2) equal boxes of any shape holds exactly four points (two points with 2^(p-1) boxes for the first two coordinates; eight points with 2^(p-3) boxes for the first three coordinates), so that no region of the square stays empty.", "quantifier": "all pairs of coordinates, all p up to 30, all aligned blocks of the sequence, all dyadic grid shapes and boxes", "why_tests_cant": "there are 2^30 points and thousands of grid shapes; a histogram of one coordinate looks perfect even when two coordinates are correlated", "anchors": ["math/rand/sobol.go: Init, Next, NextAt"]}
{"id": "C110", "title": "Axes of a shell are lengths of the shell, for shells of all shapes", "statement": "Shell.Axes returns the lengths of the three axes of an ellipsoidal shell: for a sphere of radius R all three are R within a few percent; it returns for every shell with positive axes, however elongated or flat, and its result does not depend on the shells that were measured before.", "quantifier": "all shells (all eigenvalues and eigenvectors of their inertia tensors), all sequences of earlier calls of Axes", "why_tests_cant": "The correction tables hold 3 x 576 numbers and are interpolated by splines with a memory; a test tries a few shapes in one order, and the crash is confined to shapes outside of the tables.", "anchors": ["los/analyze/shell.go:Axes", "los/analyze/shell.go:axisInterpolators", "los/analyze/ellipse_grid/grid.go:CCorrectionGrid", "math/interpolate/cubic_interpolators.go:BiCubic.Eval", "cmd/stats.go"]}
{"id": "C111", "title": "Sampled distributions of radii converge to those of the shell", "statement": "With independent uniform random numbers, and with probability one as the number of samples grows: every value of RadiusHistogram converges to the fraction of the sky whose radii lie in its bin (of the part with radii in the range), divided by the bin width; every value of AngularFractionProfile, for a shell inside of the range of radii, converges to the fraction of the sky in which the shell reaches the lower edge of the bin; MedianRadius converges to the median of the radii over the sky when there is only one; and for continuous shells RadialRange converges to the smallest and largest radius and MaxDiff to the largest difference of the two shells.", "quantifier": "all bounded measurable (or continuous) shells, all numbers of bins and ranges, all probability spaces with independent uniform draws, almost all sequences of draws", "why_tests_cant": "a claim about limits over all sequences of random numbers; for any finite number of samples the results differ from the limits, so that a test needs a tolerance which hides wrong bins, ranks and weights of directions", "anchors": ["los/analyze/shell.go: RadiusHistogram, AngularFractionProfile, MedianRadius, RadialRange, MaxDiff, randomAngle"]}
{"id": "C112", "title": "In machine arithmetic the density of a particle ends where its sphere ends", "statement": "In float64 arithmetic, a particle whose sphere contains the center of a ring adds its density to each line of sight of the ring only up to the radius at which the line leaves the sphere, up to rounding.", "quantifier": "all spheres around the center of a ring, all directions of lines of sight, all rings, all values of the logarithm", "why_tests_cant": "the failure needs a center of a sphere exactly perpendicular to a line of sight and a rounded square one unit in the last place too large; the tests use no such positions, and random ones meet them rarely although almost every line of sight has them", "anchors": ["los/halo.go: insertToRing, oneValIntrDist", "los/profile_ring.go: Insert, Retrieve"]}
{"id": "C113", "title": "In machine arithmetic every particle of a median profile is counted in a pixel of its own hemisphere", "statement": "In float32, float64 and 64 bit integer arithmetic, the median profiles of the prof mode count every particle in the radial range in an existing pixel (no index panic), and in the hemisphere, south or north, in which its polar angle lies; a particle straight above or below the halo is counted in the pixel at that pole.", "quantifier": "all particle positions in float32, all pixel levels, all implementations of the trigonometric functions with the right ranges and special values", "why_tests_cant": "all float32 displacements: the failures need directions within 2^-12 of a pole whose rounded squared distance is too small, or azimuths one unit in the last place below a full turn", "anchors": ["cmd/prof.go: insertMedianPoints", "los/geom/pixel.go: SpherePixel, DiskPixel, DiskPixelNum, SpherePixelNum"]}
{"id": "C114", "title": "Different snapshots and blocks are read from different files", "statement": "When the program accepts a snapshot format and its meanings, no two blocks of the simulation (of the same snapshot or of different snapshots) get the same file name, so that no file is read twice in place of another one.", "quantifier": "all formats built from text, %%, %d and %s with widths and zero padding, all meanings, all ranges of snapshots and blocks, all scale factor files", "why_tests_cant": "injectivity over all pairs of argument lists and all formats; the tests print one or two names", "anchors": ["cmd/env/Gadget-2.go: InitGadget2", "cmd/env/LGadget-2.go: InitLGadget2", "cmd/env/env.go: GetColumn, interleave, ParticleCatalog", "cmd/cmd.go: validateFormat"]}
{"id": "C115", "title": "A halo catalogue that cannot be read completely is refused", "statement": "Reading a halo catalogue from a file either returns exactly the rows the complete file holds or reports an error. If only a leading part of the file's bytes can be read (the file is being written, is on a failing disk, or has shrunk since its size was asked for), the reader never returns a table as if that part were the file.", "quantifier": "every file content, every number of bytes that the read system calls deliver, every selection of columns", "why_tests_cant": "A unit test reads intact files; the number of bytes delivered before a failure and the byte where the file is cut range over every possibility.", "anchors": ["cmd/catalog/catalog.go: ReadFile, Parse", "cmd/halo/io.go: readTable"]}
{"id": "C116", "title": "Every direction has polar angles in machine arithmetic", "statement": "For every non-zero vector the polar angle and the sine computed from it by acos(z/r) and the square root of 1 minus the square of z/r are numbers: rounding never pushes the quotient outside [-1, 1]. This holds for the float64 points of the shell integrals and of the Penna fit, for the ring normals, and for the float32 particle positions that are tested against a shell.", "quantifier": "all float64 and float32 coordinates, all roundings of the operations", "why_tests_cant": "Whether the rounded quotient z/r passes 1 depends on the last bit of each coordinate; there are 2^96 float32 triples.", "anchors": ["los/analyze/shell.go: Contains, CartesianSampledVolume", "los/analyze/penna.go: PennaFunc", "los/geom/rotation.go: SphericalAngles", "cmd/shell.go: normVecs", "cmd/stats.go: appendShellParticlesChan"]}
{"id": "C117", "title": "The bootstrap error of a profile is a number", "statement": "The error that prof mode prints for the percentile of a profile, the root of the mean square minus the squared mean of the resampled percentiles, is a non-negative number close to the true spread of the resampled percentiles; in particular it is zero when all profiles agree.", "quantifier": "all profile values, all percentiles, all random draws, any number of samples", "why_tests_cant": "The cancellation in E[x^2] - E[x]^2 depends on the last bits of the values and on the random draws.", "anchors": ["cmd/prof.go: percentileProfile, bootstrap loop (629-650)"]}
{"id": "C118", "title": "Interpolators evaluate lists of points pointwise, whatever slices are shared", "statement": "EvalAll of every interpolator returns, in order, the value at each of the given points, writes them to the output slice if one is given, and changes nothing else. The caller may reuse his slices: the table an interpolator was made from, and the slice of points as output slice.", "quantifier": "all interpolators, tables, points, and all ways in which the slices overlap in memory", "why_tests_cant": "The existing tests use fresh slices; what happens with shared memory depends on every possible overlap of the windows.", "anchors": ["math/interpolate/linear_interpolators.go: Linear.EvalAll, BiLinear.EvalAll, TriLinear.EvalAll", "math/interpolate/spline.go: NewSpline, Init, EvalAll, Eval", "math/interpolate/cubic_interpolators.go: BiCubic.EvalAll, TriCubic.EvalAll"]}
{"id": "C119", "title": "A sphere beside the centre raises the lines it crosses, in machine arithmetic", "statement": "In machine arithmetic, inserting a sphere that does not contain the centre of a ring never panics, visits each line of sight at most once, raises every line of sight that crosses the sphere between the points where the line enters and leaves it, and leaves lines that miss the sphere unchanged.", "quantifier": "all sphere positions, radii and line counts, all implementations of atan2, asin, sin and cos with small errors, all rings", "why_tests_cant": "The range of lines is computed from rounded angles on a circle with a branch cut, and the ends of the chord from differences of rounded squares; that no long chord falls through the cracks is a statement about every position and every rounding.", "anchors": ["los/halo.go: insertToRing, idxRange, halfAngularWidth, twoValIntrDist", "los/profile_ring.go: Insert"]}
{"id": "C120", "title": "Random numbers stay in their range in machine arithmetic", "statement": "Also with the rounding of float64, the generators return numbers in [0, 1), Uniform(low, high) and UniformInt(low, high) return numbers at least low and below high, and drawing a batch gives the same numbers as drawing them one at a time.", "quantifier": "all seeds, all states reachable by draws, all bounds and batch lengths, all digits the seed generator can supply", "why_tests_cant": "A value equal to the upper bound needs a rounding that almost never occurs; its absence is a statement about the whole orbit of every seed.", "anchors": ["math/rand/xorshift.go: Next, NextSequence", "math/rand/tausworthe.go: Init, Next, NextSequence", "math/rand/rand.go: Uniform, UniformAt, UniformInt"]}
{"id": "C121", "title": "Densities along a line of sight in machine arithmetic", "statement": "With the rounding of float64, inserting any plateaus of density into the profiles of a ring never panics, and the densities then read from a line of sight equal the sum of the overlaps of the plateaus with each radial bin, or the default density where that is larger, whatever way the insertions are distributed over threads. As stated with equality this is false; it holds up to a bound proportional to the number of insertions, bins and threads times the sum of the densities, and the result is never below the default density.", "quantifier": "all rings, lists of insertions with ends beyond the outer radius or clearly below it, default densities, distributions of the insertions over workers and states of their scratch buffers", "why_tests_cant": "The rounding errors of a running sum depend on the order of all insertions on the line; a bound for every order and thread count is beyond any sample.", "anchors": ["los/profile_ring.go: Init, Insert, Retrieve, Join, Split", "los/halo.go: GetRhos, Join, Split", "cmd/shell.go: loadSphereVec"]}
{"id": "C122", "title": "In machine arithmetic, too, the files with a halo's particles are read for it", "statement": "With the regions of the files computed in float32 from their particles and compared with the halos in float64, every file that has a particle closer to the center of a halo than its radius, in some periodic image, is read for that halo, and no halo is listed twice. As stated this is false; it holds for particles inside by a margin of (n+1)/2^22 box widths, n being the number of particles of the file.", "quantifier": "all snapshots (any number of files and particles with float32 positions in the box), all lists of halos with centers in the box and radii with region width plus radius up to half the box, or files that fill the box", "why_tests_cant": "The loss depends on the order of up to billions of particles and on roundings at the edge of the regions.", "anchors": ["cmd/stats.go: inRange, sphereSheetIntersect, binSphereIntersections", "los/halo.go: wrapDist, inRange, SheetIntersect", "cmd/shell.go: binIntersections", "io/io.go: boundingBox"]}
{"id": "C123", "title": "Interpolated values in machine arithmetic", "statement": "In double precision, the linear interpolator on a strictly increasing table of two or more points panics exactly for arguments outside of the table, and inside it returns the straight line between the two neighbouring table points up to V/2^47, where V bounds the size of the table's values; the bilinear interpolator panics exactly outside of its grid and returns the bilinear surface of the grid cell up to V/2^48. It does not hold exactly: rounding makes the interpolator miss the table's own points.", "quantifier": "for every strictly increasing table (or pair of tables) of two or more points, every list of values of matching length, every argument", "why_tests_cant": "the error of the rounded slope, product and sum, and the rounded guess of the search, have to be bounded for every table, spacing and argument; tests compare a few values with a tolerance", "anchors": ["math/interpolate/search.go:init", "math/interpolate/search.go:search", "math/interpolate/linear_interpolators.go:Linear.Eval", "math/interpolate/linear_interpolators.go:BiLinear.Eval"]}
{"id": "C124", "title": "The random numbers cover their range exactly evenly, and the ring normals are always found", "statement": "With any seed the default random generator runs through its numbers in a cycle of 2^128-2^96: from any point on, the next 2^128-2^96 numbers contain each k/(2^32-1), 0 <= k < 2^32-1, exactly 2^96 times (and these, rounded to double precision, stay different), and then the sequence repeats. All seeds give the same cycle, entered at different places. Hence the search for the random orientations of the rings, which refuses points outside the unit sphere, ends for every seed and every number of rings, never divides by zero, and returns unit vectors (up to 3/2^24 in the square of the length) whose polar angles are numbers.", "quantifier": "for every seed, every number of earlier draws, every representable value, every number of rings", "why_tests_cant": "The period has 39 digits; that the generator never gets stuck in a short cycle that misses the unit sphere can be tested for some seeds and some time only.", "anchors": ["math/rand/xorshift.go:Init", "math/rand/xorshift.go:Next", "math/rand/rand.go:Uniform", "cmd/shell.go:normVecs"]}
{"id": "C125", "title": "In machine arithmetic every particle of a profile is counted in the bin it belongs to", "statement": "With the rounding of single and double precision, binning never panics. In prof mode a particle is in at most one radial bin, which exists; the logarithm of its distance is within the bin's edges up to 2^-20, a particle that is left out is nearer than the inner limit or farther than the outer one up to one part in 2^20 (or fails the test of the profile type), and each bin holds the sum of the masses of its particles in the order of the file, with a relative error of at most n/2^52. The same holds of the radial bins of median profiles. In phase mode a particle is in at most one cell: its distance respects the radial edges up to one part in 2^21, its velocity the velocity edges up to one part in 2^48 (except that the first velocity bin reaches one bin below the limit), and that velocity is the exact one up to a 2^-20th of the particle's speed and Hubble flow.", "quantifier": "for every list of particles, every halo radius, every limits and numbers of bins within wide ranges, every logarithm function accurate to four units in the last place", "why_tests_cant": "the rounded limit, logarithm and quotient disagree for particles next to an edge only, and the bin computed for such a particle could be out of the array; a test would need to find those particles", "anchors": ["cmd/prof.go:insertPoints", "cmd/prof.go:insertMedianPoints", "cmd/phase.go:insertPhasePoints"]}
{"id": "C126", "title": "The printed density of a bin is the mass in the bin divided by its volume, in machine arithmetic", "statement": "For every halo, prof mode returns as many radii and densities as there are bins; the radii are the logarithmic centres of the bins (relative error 2^-36), all densities are numbers, and a density times the exact volume of its shell is the exact mass of the particles in the bin up to a relative error of (1+1/w)/2^30 + k/2^52 (w the logarithmic width of a bin, k the number of particles in it), although the bins are filled with a radius that went through single precision and the volumes are computed with one that did not. The particles in a bin are those whose distance is within its edges up to two millionths. In phase mode the same holds of radii and velocities (the centres of the bins) and of the densities of the cells, with a relative error of rbins/2^44 + k/2^52; the velocity of a particle in a cell is within the cell's edges up to a millionth of the velocity limit, of its speed and of its Hubble flow, except that the first velocity bin reaches one bin below the limit.", "quantifier": "for every list of particles with nonnegative masses, every halo radius and velocity, every limits and numbers of bins within wide ranges, every logarithm and exponential accurate to four units in the last place", "why_tests_cant": "The difference of the cubes of two neighbouring edges loses digits, and bins and volumes are computed from differently rounded radii; the size of both errors has to be bounded for all numbers of bins and all halos.", "anchors": ["cmd/prof.go:processProfile", "cmd/prof.go:insertPoints", "cmd/prof.go:extendedBoundingSpheres", "cmd/phase.go:processPhaseProfile", "cmd/phase.go:insertPhasePoints"]}
{"id": "C127", "title": "Cell boxes are right across the periodic boundary", "statement": "For the box of grid cells around a sphere: Inside says of every cell of the grid whether it is one of the cells of the box (counted around the ring of cells, whatever the length of the box and whether or not it crosses the boundary); ConvertIndices gives the number of steps from the first cell of the box to a cell, which is less than the length of the box exactly for the cells inside; the cells that the search reads are those for which Inside holds; and every point within the radius of a periodic image of the centre lies in a cell that is inside.", "quantifier": "for every box whose first cell is in the grid, every cell of the grid, every number of cells; every centre, radius (2r + one cell <= box width) and point", "why_tests_cant": "The wrap-around cases depend on the relative position of box, boundary and cell; all combinations of sizes must be right.", "anchors": ["cmd/halo/finder.go:Bounds.SphereBounds", "cmd/halo/finder.go:Bounds.ConvertIndices", "cmd/halo/finder.go:Bounds.Inside"]}
{"id": "C128", "title": "Whether a point is inside a fitted shell is decided correctly in machine arithmetic", "statement": "For every set of Penna coefficients and every point except the centre, the radius of the shell in the direction of the point that the program computes in double precision (via the angles of the point) differs from the exact polynomial in the components of the unit vector by at most ((I+J+K)(4e+2^-23) + (IJK+5)/2^52) times the sum of the sizes of the coefficients, where e is the accuracy of atan2, acos, sincos and pow. Contains is therefore right for every point whose distance differs from the shell by more than this and one part in 2^50 of the distance; for order 3 two millionths of the size suffice. The centre is never inside. It is not accurate to machine precision: near the poles points that are inside by 2^-28 are said to be outside.", "quantifier": "for all coefficients, orders with at most 2^50 coefficients, points, and all implementations of the functions of package math with the given accuracy", "why_tests_cant": "Rounding errors depend on every coefficient and every direction; near the poles the arccosine magnifies them by 2^27.", "anchors": ["los/analyze/penna.go:PennaFunc", "los/analyze/shell.go:Shell.Contains"]}
{"id": "C129", "title": "Sampled volumes and radii of shells in machine arithmetic", "statement": "For every fitted shell and every sequence of random draws, the volume, the mean radius, the median radius and the range of radii that are computed in double precision are those of the exact shell in the directions drawn (azimuthal angle 2*pi*u, cosine of the polar angle 2v-1): with E the error of a radius (C128), the mean is off by at most E + (n+2)/2^52 times the size of the shell, the volume by at most 13 E times the square of the size plus (n+8)/2^49 times its cube, fewer than half of the exact radii exceed the median by more than E and at least half are not more than E below it, and the limits of the range are within E of the smallest and largest exact radius.", "quantifier": "for all coefficients and orders, all numbers of samples below 2^50, all draws in [0,1), all implementations of the functions of package math with the given accuracy", "why_tests_cant": "Rounding errors accumulate with the number of samples and depend on every draw.", "anchors": ["los/analyze/shell.go:Shell.Volume", "los/analyze/shell.go:Shell.MeanRadius", "los/analyze/shell.go:Shell.MedianRadius", "los/analyze/shell.go:Shell.RadialRange", "los/analyze/shell.go:randomAngle"]}
{"id": "C130", "title": "Mass and particles of a shell in machine arithmetic", "statement": "In the stats mode a particle is added to the mass of a shell exactly if it is inside, and it is put into the list of shell particles exactly if it is inside (negative shell width) or within the width of the shell, although the displacement and the squared distance are float32 numbers, the shell is evaluated in float64 and the squares of the radial limits are rounded to float32: particles that are farther from the limits than a stated margin are treated correctly.  The mass of a file is the sum of the masses of those particles, up to the rounding of the additions, for every number of threads and every schedule.", "quantifier": "every shell of every order, every halo position, every particle, all limits, every accuracy of the functions of package math, every number of threads and every schedule", "why_tests_cant": "errors occur for few of millions of particles, close to the shell or to the polar axis, and depend on the last bits of their coordinates", "anchors": ["cmd/stats.go: wrap, findOrder, massContained, massContainedChan, appendShellParticlesChan", "los/analyze/shell.go: Contains", "los/analyze/penna.go: PennaFunc"]}
{"id": "C131", "title": "Profiles of the prof mode from positions and velocities, in machine arithmetic", "statement": "With float32 positions, velocities and masses and the rounding of every operation, each bin of a density, contained density or bound density profile holds the (rounded, in file order) sum of the masses of exactly the particles that satisfy the criterion of the profile (any; inside the shell; slower than the escape velocity of the NFW halo at their distance) and whose distance from the halo is between the edges of the bin, where distances are decided up to two parts in a million, membership of the shell up to the accuracy of the evaluation, and squared velocities up to one part in 4096. No particle makes the mode panic.", "quantifier": "all halos with concentration at least 1, all shells, all lists of particles that need no periodic shift, all radial ranges and bin counts that the mode accepts, all logarithm and trigonometric functions of the stated accuracy", "why_tests_cant": "the error of the escape velocity depends on twelve roundings and on the cancellation in the mass function of the NFW profile, for every concentration and distance; the index of the bin must be valid for all of them", "anchors": ["cmd/prof.go:insertPoints", "cmd/prof.go:ExtendedSphere", "los/analyze/shell.go:Shell.Contains"]}
{"id": "C132", "title": "Potential maps in machine arithmetic", "statement": "With float32 positions and masses and the rounding of every operation, each cell of the maps of the potential mode is a number and equals the potential of the particles between RMinMult and RMaxMult radii of the halo at the point of the cell, in units of Frac M / R, up to a stated relative error; the radius that is multiplied by RMaxMult, converted to single precision and divided again moves neither the points nor the limits by more than that. The code gives an infinite value if a particle is at the point of a cell.", "quantifier": "all halos with positive radius and mass, all map sizes from 2 cells, all RMinMult, RMaxMult, RGridMult, all lists of up to 2^30 particles that are not within 2^-18 of the radial limits nor closer to the point of the cell than the error of the distance allows", "why_tests_cant": "the error of a cell depends on some thirty roundings per particle, on cancellation between particle and grid positions and on the number of particles; the potential has a pole at each particle", "anchors": ["cmd/potential.go:insertPotentialPoints", "cmd/potential.go:processPotential", "cmd/stats.go:boundingSpheres"]}
{"id": "C133", "title": "Phase diagrams from positions and velocities in machine arithmetic", "statement": "With float32 positions, velocities and masses and the rounding of every operation, no particle makes the phase mode panic, each cell of the phase diagram is the rounded sum of the masses of its particles, a particle in a cell has a distance from the halo between the edges of the radial bin and a velocity (radial or speed, with or without the Hubble flow) between the edges of the velocity bin up to a stated tolerance, and a particle in no cell is outside of the grid or, for radial velocities, at the centre of the halo. The code counts particles with a velocity up to one bin below the lowest velocity in the first bin.", "quantifier": "all halos, multipliers, bin numbers up to 2^40, profile types, all lists of particles within half a box of the halo", "why_tests_cant": "the tolerance depends on the roundings of displacement, velocity, product sums, square root and quotients for every particle; a panic would need one unlucky particle", "anchors": ["cmd/phase.go:insertPhasePoints", "cmd/phase.go:Run", "cmd/stats.go:boundingSpheres"]}
{"id": "C134", "title": "Smoothed slopes and splashback radii of lines of sight in machine arithmetic", "statement": "With every operation rounded, smoothing a positive profile longer than the window never panics; slopes and logarithms of the smoothed densities are the weighted logarithms of the profile, continued with its end values, up to a tolerance that grows with the window, the logarithms and the error of the kernel weights; the radius reported for a line of sight is that of a point which is, up to these tolerances, a local minimum of the slope below the limit with a density below all further in and as steep as every clear candidate; no radius is reported only if there is no clear candidate; and the profile that is passed in is unchanged afterwards. The code restores the profile only up to rounding.", "quantifier": "all positive profiles, radii, windows up to 2^40, kernels, limits, and all logarithm and exponential functions with a relative error of 2^-50", "why_tests_cant": "whether a slope is a minimum depends on the difference of two nearly equal rounded sums; every profile has its own rounding pattern, and the candidates are compared with each other", "anchors": ["los/analyze/smooth.go:Smooth", "los/analyze/splashback_radius.go:SplashbackRadius", "los/analyze/ring_buffer.go:Splashback", "math/interpolate/filter.go:ConvolveAt"]}
{"id": "C135", "title": "Smoothing into slices of the caller and in place", "statement": "Smooth with the options Vals and Derivs returns the same smoothed values and slopes as without them, whatever the slices held before and after any history of earlier calls, also when a slice is the profile itself (the documentation says that the options allow the smoothing to be done in place). In the code this holds for slices of their own only: in place, a constant profile c becomes exp(c), with the profile as target of the slopes all slopes are positive and no splashback radius is found, and one slice for both results holds the same numbers twice.", "quantifier": "all profiles, windows, slices and their contents, all histories of calls", "why_tests_cant": "the effect of shared memory depends on the order of reads and writes of every loop; stale contents and stored kernels depend on the history", "anchors": ["los/analyze/smooth.go:Smooth", "los/analyze/smooth.go:Vals", "los/analyze/smooth.go:Derivs", "math/interpolate/filter.go:ConvolveAt"]}
{"id": "C136", "title": "Trilinear interpolation in machine arithmetic", "statement": "A trilinear interpolator made from three strictly increasing tables of at least two points and a grid of values panics exactly for points outside of the tables. Inside, the float64 result is the trilinear interpolation of the values at the eight corners of the cell, up to 2^-44 times the largest absolute value of the grid, whichever of the adjacent cells is taken for points on a border; at the points of the grid it is exactly the value of the grid.", "quantifier": "all tables, all grids of values, all points, every rounding of every operation", "why_tests_cant": "The error of a chain of rounded operations and the exactness at the grid points have to hold for every spacing of the tables, every set of values and every point; tests see a few.", "anchors": ["math/interpolate/linear_interpolators.go: NewTriLinear, TriLinear.Eval", "math/interpolate/search.go: searcher.search"]}
{"id": "C137", "title": "Angular fraction profiles in machine arithmetic", "statement": "For a shell between the limits of the profile, the angular fraction profile of prof mode, computed in float64, has one radius and one fraction per bin. The radii are the logarithmic centres of the bins (relative error 2^-36). The first fraction is exactly 1, every fraction is a number between 0 and 1 and no larger than the ones before it, and it is the fraction of the sampled directions in which the shell reaches the lower edge of the bin, correct to the last bit, where the edge may be moved by one part in 2^35.", "quantifier": "all limits, numbers of bins and sampled radii (up to 2^53 samples) of shells between the limits; logarithm and exponential with any error of a few units in the last place", "why_tests_cant": "The samples are random and whether a radius next to an edge falls into the wrong bin, out of the table or makes the fractions increase depends on the rounding of logarithms; no test sees all radii and limits.", "anchors": ["los/analyze/shell.go: Shell.AngularFractionProfile", "cmd/prof.go: angularFractionMain"]}
{"id": "C138", "title": "Masses and radii in machine arithmetic", "statement": "With every float64 operation of the cosmology and of the mass definitions rounded (and math.Pow accurate to 2^-50 relative to the size of its logarithm), the radius computed for a mass (R200m, R200c, R500c, R2500c; from a catalogue column in any of the eight units of length) is that of the sphere whose mean density is the named multiple of the critical or mean density up to a relative error of 2^-39 of the mass; a mass of zero gives the radius zero; the mass computed for a radius is right up to 2^-40; and the mass of the radius of a mass is the mass up to 2^-40; coord mode converts lengths of either sign up to 2^-48, and radii that were computed from masses and put into the units of the catalogue come out in comoving Mpc/h with the same bound.", "quantifier": "all masses within a factor 2^500 of the mass in 1 Mpc/h (and zero), all radii, all cosmologies with positive h and matter density, 2^-100 <= 1+z <= 2^100 (flat up to rounding for the mean density), all definitions and units, all implementations of math.Pow of the stated accuracy", "why_tests_cant": "Rounding errors depend on all inputs at once and a test compares a handful of halos with a tolerance chosen to fit; the bound has to hold for every mass, redshift and cosmology.", "anchors": ["cosmo/param.go: HubbleFrac, RhoCritical, RhoAverage", "cmd/halo/radius.go: Radius.Radius, Radius.Mass, UnitConversionFactor", "cmd/halo/io.go: VarColumns.GetColumn", "cmd/coord.go: readHaloCoords"]}
{"id": "C139", "title": "R_sp in machine arithmetic", "statement": "For every fitted shell, the column R_sp of stats is a positive number whenever the volume is, and it is the radius of the ball with this volume: its logarithm is off by at most a 100000th part of the logarithm of that radius (the exponent in the code is 0.33333) and 2^-41. Together with the sampled volume in machine arithmetic: for radii between 2^-10 and 2^10 Mpc/h, R_sp is within a 5000th part of the radius of the ball whose cubed radius is the mean of the cubed radii of the shell in the sampled directions.", "quantifier": "all volumes of balls with radii between 2^-160 and 2^160; all coefficients, orders and sampled directions whose volume is not lost in the rounding error; all implementations of math.Pow and of the trigonometric functions of the stated accuracy", "why_tests_cant": "The error depends on the volume, the exponent and the rounding of every sample; a test with a sphere of radius one does not show it at all.", "anchors": ["cmd/stats.go: statsMain loop over shells (vol, r)", "los/analyze/shell.go: Shell.Volume"]}
{"id": "C140", "title": "Particle masses and sphere densities in machine arithmetic", "statement": "With every float64 and float32 operation rounded: the particles of a uniform simulation (Gotetra, LGadget-2) together have the mass of the box at today's mean matter density, up to a relative error of 2^-23; the density with which shell mode inserts the sphere of a particle is the particle's mass (times the cube of the subsampling factor) over the volume of the ball with RKernelMult times the halo radius, in units of the mean matter density of the snapshot, up to 2^-40, although the radius is recovered from the largest radius by a multiplication and a division; and the background density is BackgroundRhoMult times that of a particle of the smallest mass, up to 2^-40.", "quantifier": "all particle numbers, box widths, masses, halo radii, kernel and limit multiples, subsampling factors (all positive), all flat cosmologies with 2^-100 <= 1+z <= 2^100, all implementations of math.Pow of the stated accuracy", "why_tests_cant": "Masses and densities pass through a dozen rounded operations with magnitudes from 1e-39 to 1e67; a test covers a handful of simulations and cannot bound the error for others.", "anchors": ["io/gotetra.go: calcUniformMass", "io/lgadget2.go: NewLGadget2Buffer", "cmd/shell.go: loadSphereVecs insertion, createHalos"]}
{"id": "C141", "title": "Gadget-2 particles in machine arithmetic", "statement": "With every operation rounded as the code rounds it (float32 positions, float32 unit factors): every float32 position within one box width of the box is accepted, and the position handed out is nonnegative, at most a relative 2^-22 above the reported TotalWidth, and within 2^-21 box widths of a periodic image of the position in the file after the conversion of units. It is not always strictly inside the box: in a box of 100000 kpc/h the last float32 below the edge comes out at exactly 100 = TotalWidth. Velocities are the file's velocities times the square root of the scale factor, and masses the file's masses times the mass unit, up to a relative error of 2^-22.", "quantifier": "all positive box widths and unit factors, all float32 positions within one box width of the box, all velocities, scale factors and masses (no overflow, no subnormal numbers)", "why_tests_cant": "Whether the converted position of a particle near the edge is inside the box depends on the last bits of the box width, of the unit and of the position; a test tries a few positions.", "anchors": ["io/gadget2.go:fix", "io/gadget2.go:postprocess", "io/gadget2.go:34", "io/gadget2.go:288-321"]}
{"id": "C142", "title": "Units of Bolshoi and ARTIO files in machine arithmetic", "statement": "With every float32 and float64 operation rounded: a grid coordinate x of a Bolshoi file (counted from 1) comes out as (x-1)*BoxWidth/NGridCells up to a relative error of 2^-22, between 0 and a relative 2^-22 above the box width, and the order of the particles along an axis is kept; the redshift of the header is 1/a-1 (1+z up to a relative 2^-24), not negative for a up to 1, and velocities of Bolshoi and BolshoiP files are those of the file times the scale factor up to 2^-22, although the redshift is formed in float32; the particle mass is 1.35e8 times the volume of the box in units of (250 Mpc/h)^3 up to 2^-23. Positions and species masses of ARTIO filesets are those of the file in Mpc/h and Msun/h (0.7 for a missing Hubble parameter) up to 2^-21 and 2^-22, and particles of the box are handed out between 0 and a relative 2^-20 above the reported TotalWidth, although the header converts in float64 and the particles in float32.", "quantifier": "all box widths, grid sizes below 2^24, float32 grid coordinates from 1 to n+1, scale factors from 2^-23 to 2, velocities, Hubble parameters (or none), units, positions and masses (no overflow, no subnormal numbers)", "why_tests_cant": "The error depends on the last bits of the box width, the grid size, the scale factor and the units in the header; a test has one file.", "anchors": ["io/bolshoi.go:filterBolshoiParticles", "io/bolshoi.go:postprocessBolshoi", "io/bolshoi.go:ReadHeader", "io/bolshoi.go:MinMass", "io/bolshoiP.go:Read", "io/artio.go:NewARTIOBuffer", "io/artio.go:Read", "io/artio.go:ReadHeader"]}
