#!/usr/bin/env python3
"""Writes DESIGN.md from the texts below, properties.jsonl, MANIFEST.json and tools/status.json (run in /verif)."""
import json, re, glob
PLAN = {
# id: (what is modelled, how it is proved)
"C01": ("math/sort quick and shell sort over lists of any linear order, loops as recursion with fuel", "loop invariants: permutation and sortedness; the fuel is shown to suffice"),
"C02": ("NthLargest and Median of math/sort", "partition specification; the result is an element of the sorted list; Median refuted for odd lengths"),
"C03": ("Percentile of math/sort", "rank of the result for every p; refuted as an ascending percentile"),
"C04": ("version.Parse on characters, Later on triples", "lexicographic order laws"),
"C05": ("parse.ReadConfig on the characters of the file; variables are a store", "equivalence with a declarative meaning of files (Spec/Config)"),
"C06": ("the same functions as C05", "two files with the same assignments have the same meaning"),
"C07": ("ReadFlags, getFlags, getConfig and the ReadConfig methods of the modes", "equivalence with an assignment-list specification"),
"C08": ("the index expressions of ReadConfig/ReadFlags, panics explicit", "exact condition for a panic, witness files"),
"C09": ("catalog.FormatCols, Parse, ReadFile/ReadStdin up to the bytes", "round trip through the word structure of lines"),
"C10": ("catalog.Parse with all its buffers", "exact result or panic of every text"),
"C11": ("CommentString and the column ranges", "ranges partition the columns"),
"C12": ("the Init functions of cmd/env, ParticleCatalog, interleave", "mixed radix digits; bijection between files and index tuples"),
"C13": ("io/filter_data.go writer and reader, byte level", "round trip for both byte orders"),
"C14": ("the offsets of io/filter_data.go", "exact condition; refuted from the second halo on"),
"C15": ("xorshift and the Uniform wrappers on 32-bit words", "the linear step is injective and never 0; ranges over the rationals"),
"C16": ("tausworthe.go", "invariants of the buffer indices, batch = single"),
"C17": ("sobol.go", "triangular direction numbers, Gray code induction"),
"C18": ("cmd/utils.go LockGroup as a transition system", "invariants over all interleavings; termination measure"),
"C19": ("the strided loops and collectors of stats, shell, prof, potential", "residue classes partition the indices; fold over any arrival order"),
"C20": ("ProfileRing Split/Join, Halo Split/Join, the reuse of workers", "additivity of Insert; histories of whole runs"),
"C21": ("ProfileRing Insert/Retrieve", "prefix sums of increments equal overlap lengths"),
"C22": ("grid.go", "linked lists of the cells contain each index once"),
"C23": ("finder.go, split_finder.go", "refinement to brute force over periodic distances"),
"C24": ("the host and subhalo tables of finder.go", "list invariants, no assumption on the input"),
"C25": ("cmd/id.go ranges and lists", "exact output; refuted for the last id"),
"C26": ("memoize.go ReadSortedRockstarIDs", "permutation sorted by mass; panic at the end refuted"),
"C27": ("memoize.go ReadHeaders with files as byte lists", "every prefix of the file as a crash state"),
"C28": ("shellfish.go checkMemoDir/configEqual, cmd/utils.go, nil snapshots", "exact acceptance condition; readers depend only on compared settings (partly refuted)"),
"C29": ("IntFinder, ReadRockstar", "binary search invariant"),
"C30": ("byte swapping of io/io.go and of the readers", "involution; round trip for both orders"),
"C31": ("whole Gadget-2 and LGadget-2 files as byte strings", "parser correctness against a writer (Spec/Gadget)"),
"C32": ("wrapping of positions, corruption check", "exact arithmetic, an arithmetic with monotone rounding, and float32 (differences within a factor of two are exact)"),
"C33": ("bounding boxes of io/io.go", "minimum and maximum folds"),
"C34": ("Open/Close state of the readers", "state machine over all call sequences"),
"C35": ("segment extraction of io/gotetra.go", "index arithmetic"),
"C36": ("the box tests that match halos with files", "periodic interval arithmetic over the reals"),
"C37": ("Transform and the displacement functions", "nearest image among all lattice shifts"),
"C38": ("spoke ranges of los/halo.go", "angles over the reals; count of visits"),
"C39": ("los/geom/pixel.go", "real arithmetic with floor; surjectivity"),
"C40": ("los/geom/primitives.go", "ring identities"),
"C41": ("math/mat LU, Solve, Invert, Determinant, products", "invariant of the elimination with pivoting; matrix identities"),
"C42": ("search.go, linear_interpolators.go, spline.go, tridiagonal solver", "field identities, search invariant, diagonal dominance"),
"C43": ("splashback_radius.go", "argmin over interior points"),
"C44": ("binBySnap and friends", "partition; independence of map order"),
"C45": ("cmd/tree.go, los/tree/tree.go", "chains of the forest as lists"),
"C46": ("cmd/coord.go from rows to the text", "composition with C09/C11/C69"),
"C47": ("cosmo, cmd/halo/radius.go", "real analysis of powers"),
"C48": ("math/calc/deriv.go", "polynomial identities on the grid"),
"C49": ("cmd/prof.go and cmd/phase.go run loops over files", "induction over the files; early return refuted"),
"C50": ("binning of prof and phase", "sums over bins; real logarithms"),
"C51": ("all ExampleConfig texts verbatim (generated), ReadConfig/validate of every mode", "acceptance for every subset of the shown settings, by symbolic evaluation"),
"C52": ("math/interpolate/filter.go", "convolution as a finite sum, per boundary rule"),
"C53": ("validateFormat against ParticleCatalog", "case analysis on meanings; refutations"),
"C54": ("text_halos.go", "suffix alignment of lists"),
"C55": ("los/geom/rotation.go", "matrix identities, trigonometry"),
"C56": ("Halo.Insert and sphereIntersectRing", "geometry of chords over the reals"),
"C57": ("the distance cut of the shell mode", "every sphere that reaches a line passes"),
"C58": ("cache files of cmd/halo/io.go", "every prefix of the bytes"),
"C59": ("exclusion, neighbours and mult of cmd/id.go", "composition with C23"),
"C60": ("io/bolshoi.go, io/bolshoiP.go on bytes", "parser correctness against Spec/BolshoiP"),
"C61": ("the cells of the files of a snapshot", "floor arithmetic; exactly one cell"),
"C62": ("truncated files for all readers", "every prefix of the bytes"),
"C63": ("ray-tetrahedron intersection", "Plücker signs; barycentric coordinates"),
"C64": ("sphere.go, primitives.go predicates", "real inequalities"),
"C65": ("cubic_interpolators.go with the kept splines", "state invariant over call sequences"),
"C66": ("Savitzky-Golay kernels", "normal equations, orthogonality"),
"C67": ("smooth.go with its kernel cache", "history of calls"),
"C68": ("transpose functions", "lists"),
"C69": ("VarColumns", "finite maps as lists"),
"C70": ("validate methods", "exact acceptance condition"),
"C71": ("GlobalConfig.validate", "exact acceptance condition"),
"C72": ("los/analyze/shell.go with the random draws as argument", "real sums over samples"),
"C73": ("angular fraction profile", "counting"),
"C74": ("moments and axes", "linear algebra; the eigenvectors are an argument"),
"C75": ("penna.go", "normal equations; existence of determining grids for every order"),
"C76": ("kde.go, FilterPoints", "real analysis of sums; lists"),
"C77": ("ring_buffer.go, calcCoeffs", "state invariant of reused buffers"),
"C78": ("stats mode over files and workers", "induction over files and all schedules"),
"C79": ("potential mode", "interleavings of loads and stores (Model/Mem)"),
"C80": ("shell mode over snapshots, files, workers", "refinement to per-row insertion"),
"C81": ("percentile, median and mean profiles", "order statistics"),
"C82": ("pixel profiles of prof", "order statistics, bootstrap sums"),
"C83": ("defaults of all modes", "composition with C05/C07"),
"C84": ("cmd/check.go", "folds over files"),
"C85": ("main of shellfish.go: steps, stdout, status", "induction over pipes"),
"C86": ("plane slices of intersection.go", "convex geometry in the plane"),
"C87": ("lines.go", "linear equations with tolerance"),
"C88": ("platonic.go", "finite geometry by kernel computation in ℤ[φ]-like coordinates, lifted to the reals"),
"C89": ("the sampling loops of shell.go with independent uniform draws", "expectation and the strong law of large numbers (Mathlib probability)"),
"C90": ("writeShellParticles and its check", "byte level round trip; disk that loses bytes"),
"C91": ("io/artio.go over an abstract library", "history of calls"),
"C92": ("ReadHeader/Read/MinMass/TotalParticles of all readers", "composition with C31/C60"),
"C93": ("NormVec rejection sampling", "measure theory: pushforward of uniform triples"),
"C94": ("runs of the program on one cache directory: copyFile with crash points, two interleaved processes", "invariant over all histories; schedules as witnesses"),
"C95": ("IEEE 754 rounding to 53 bits on the rationals (exponents unbounded) and the index computations of grid, rings, bins, searches and random numbers with every operation rounded", "error analysis with monotone rounding; exact counterexamples"),
"C96": ("the Run functions of the tools from text to text, the numerical parts arbitrary functions, on the parser/printer of C01-C03 and main of C85", "induction over pipes; the parser reads back what the printer wrote"),
"C97": ("the same Run functions with their headers", "cell by cell comparison of header ranges and printed rows"),
"C98": ("shellRun then statsRun on text", "parser of printer; witnesses for differing Orders"),
    "C99": ("the whole shell mode with the state it keeps: ring buffers, kernel cache, worker halos (Model/ShellFull, on Model/ShellRun and Model/Kde)", "simulation: an invariant on the kept state (buffers sized, the only kernel stored is that of the common bin width) under which the analysis of a halo is that with fresh state, then induction over halos and snapshots; with C80, a formula for every row"),
    "C100": ("the computation of the number of workers and the runtime's GOMAXPROCS, which returns the setting before the call (Model/Threads)", "induction on the number of calls; the first call of a stats run is a counterexample"),
    "C101": ("the parallel sections with an arbitrary operation (Model/Par) and float64 addition (Model/Round)", "invariant: the messages are the values of the shares in an order of arrival; construction of a schedule for every order; induction over sums for the exact and the rounded case"),
    "C102": ("`boundingBox` with every operation rounded to 24 bits (`rn 24`); exponent range not limited", "invariant over the fold with an error term per particle; witness: 2^23 particles each 2^-26 before the last one, for which the origin moves and the width does not"),
    "C103": ("`GetIDs` on the column read as float64 (`rn 53`), `NewIntFinder`, `Find`", "integers up to 2^53 are fixed points of rounding; an odd integer above 2^53 is in no catalogue that has been read"),
    "C104": ("`ReadHeader` and `bolshoiInRange`/`vecInRange` in one dimension, every operation rounded to 24 bits", "the two ends of a cell are within 2^-21 box widths of i box/n and (i+1) box/n; floor gives the cell; witnesses by computing the rounded ends"),
    "C105": ("Model/FloatText.lean: `%.6g` (six digits, ties to even, trailing zeros removed, the choice of notation) and ParseFloat (sign, digits, point, exponent, nearest float64) on texts", "the text is parsed symbolically: digits and zeros before and behind the point, exponent; the digits of a number within 2^-53 of a six-digit number are its digits; C09_round_trip instantiated"),
    "C106": ("Model/Share.lean: the steps of a command at a cache file (look, create or truncate, write byte by byte at the own offset, read back), any number of commands and any schedule; pipes of processes, each of which reads its whole input before it starts", "an invariant over all schedules (the file is a prefix of the content with holes that a writer at work still has to fill); pipes by induction on the processes; schedules that make a command go on with zero headers or without halos"),
    "C107": ("Model/Sort.lean over any type with a comparison; a float64 is NaN or a value with a sign bit, compared as in IEEE 754", "the invariants of C01 in the form `not less`, for comparisons that are only asymmetric; naturality of all functions in maps that keep the comparison carries C01 and C02 over to values without NaN; a counterexample with one NaN"),
    "C108": ("Model/FinderRound.lean (SphereBounds, the nearest image, markSubhalos, FindSubhalos) and Model/Round.lean (NewGrid, Insert) with a rounding after every operation", "monotonicity of rounding for cells on the same side of the periodic boundary; error bounds of 2^-48 box widths against the search radius (at least twice the radius of the test) on the other side; counting of the visited cells as in C23; the caller's radii and tiny radii by counterexample"),
    "C109": ("the Sobol generator of Model/Sobol.lean (every direction number, every call)", "linear algebra over GF(2): the direction numbers are computed from the model by the kernel, their leading bits are eliminated by a verified elimination for every grid shape (a finite table: p ≤ 30), and the count of points per box follows from the size of the kernel for every block and box; the empty boxes follow from a parity that every direction number satisfies"),
    "C110": ("the five tables of ellipse_grid/grid.go number by number (in units of 1e-5), the construction of the three interpolators and sequences of calls of Axes; the eigenvalue routine of mat64 is a parameter", "the invariant of C65 carried through all calls; the range of natural splines from C42; kernel computation over the tables for the symmetry; for the sphere a closed form of the surface normal and four draws at the corners of a tetrahedron"),
    "C111": ("the statistics of Model/Shell.lean on the first n of a sequence of independent uniform draws; the fraction of the sky is an integral over the sphere", "the strong law of large numbers for the indicators of the bins, with the change of variables of C89; order statistics from C02; open sets of directions have positive probability, so that extremes are approached"),
    "C112": ("insertToRing for circles around the center, oneValIntrDist, ProfileRing.Insert and Retrieve with float64 rounding, the correctly rounded square root and the NaN of negative roots (Model/LosRound.lean); the logarithm is any function with Go's special values", "when the far end is NaN is characterised; otherwise error bounds of the rounded chord; induction over the lines of sight for the ring; a concrete sphere and the line at 45 degrees as counterexample"),
    "C113": ("cmd/prof.go:548-564 for one particle and all of los/geom/pixel.go with float32, float64, NaN and wrapping 64 bit integers (Model/PixelRound.lean); Atan2, Acos and Cos are parameters of which only ranges and special values are used; NaN to int is that of amd64", "the 22 first rings by the exact roundings of the largest azimuth below a turn and monotonicity; NaN by evaluation of the integer overflow; three counterexamples; the correctly rounded functions meet all hypotheses"),
    "C114": ("fmt.Sprintf for text, %%, %d, %s, widths and zero padding (Model/Sprintf.lean, a model of the library), together with the enumeration of Model/Env.lean", "printed integers and padded strings are injective; a separator that occurs in no argument splits names uniquely (induction over the parts of the format); C12 for the enumeration; counterexamples by evaluation"),
    "C115": ("ReadFile of cmd/catalog: the buffer of the size that Stat reports, filled with the bytes the reader delivers and NULs, then Parse (Model/CatalogFile.lean)", "the table of a prefix is a prefix of the table plus at most one cut row (induction over the text); NULs make the number parser fail; counterexamples by evaluation"),
    "C116": ("acos(z/r) and the sine with every operation rounded, in float64 and float32 (Model/PolarRound.lean); math.Sqrt is correctly rounded, math.Acos is NaN exactly outside [-1, 1]", "monotonicity of rounding gives r >= |z| in float64; relative error bounds off the axis in float32; a concrete float32 point on the axis refutes the rest"),
    "C117": ("bootstrapErrorPercentile with every operation rounded to float64, over arbitrary random draws (Model/BootRound.lean)", "standard error analysis of the two sums by induction; a concrete value (0.1, three samples) whose rounded variance is negative"),
    "C118": ("a heap of arrays with slices as windows; the loop of EvalAll over one to three slices of coordinates, Linear and Spline with the slices they keep (Model/EvalAll.lean)", "loop invariant: the elements already written are values at the original points and everything else is unchanged; counterexamples for overlapping slices"),
    "C119": ("los/halo.go: insertToRing for circles beside the centre (idxRange, halfAngularWidth, twoValIntrDist), ring directions; float64 rounding, NaN and its conversion to int; atan2, asin, sincos as functions with errors up to 2^-50", "error analysis of the rounded angles against the arc of the circle (margin of the arcsine from the margin of the squares), of the impact parameter and of the square roots; interval arithmetic for the indices"),
    "C120": ("math/rand: Xorshift, Tausworthe, Uniform, UniformAt, UniformInt with float64 rounding; digits of the Golang generator as given", "the machine runs through the same states as exact arithmetic (partial correctness of the recursion) and rounds; values below 1 are below by 2^-32, which survives rounding; invariants over reachable states; counterexamples where rounding reaches the bound"),
    "C121": ("los/profile_ring.go with float64 rounding, GetRhos, the split/insert/join of the workers", "invariant: each derivative is a sum of terms with a bounded number of roundings, and their running sum is the coverage up to a bounded error; relative errors compound as (1+2^-53)^m; counterexamples with explicit roundings"),
    "C122": ("boundingBox in float32, wrapDist, inRange, SheetIntersect and the binning of halos over files in float64", "error bounds of the three or four roundings in each comparison, cases by periodic image; the region of a file contains its particles up to n roundings and its end does not move down; witnesses with explicit roundings, one of them symbolic in the number of particles"),
    "C123": ("`init` and `search` on tables, `NewLinear`/`Linear.Eval` and `NewBiLinear`/`BiLinear.Eval` with every float64 operation rounded (Model/InterpRound.lean)", "relative-error calculus `Acc` for rounded products, quotients and sums; the rounded guess is checked by the code itself, otherwise the binary search of C12; witness of a missed table point by exact rounding of 1/49 and 49·r(1/49)"),
    "C124": ("the Xorshift state update and draws of C15/C120; `normVecs` in exact arithmetic (Model/ShellRun.lean) and with rounding (Model/NormalsRound.lean)", "the update is linear over the field with two elements; powers of it are computed modulo its characteristic polynomial by a kernel-checked squaring chain: the power 2^128-1 is the identity and (2^128-1)/q is not for each of the nine primes q (the largest proved prime by Pratt's criterion), so that every orbit of non-zero states has full length; counting the states with a given last word gives the frequencies; a window of central numbers somewhere in the cycle ends the search"),
    "C125": ("insertPoints, the radial bin of insertMedianPoints and insertPhasePoints in float32/float64 with rounding (Model/BinRound.lean); math.Log by its accuracy only; the displacements are given", "relative error of the squared distance, of the edges and of the quotient; the rounded logarithms are off by less than one bin, and the last bin is guarded; the sums follow by induction on the particles"),
    "C126": ("processProfile and processPhaseProfile with rounding, composed with the binning of C125 (Model/DensityRound.lean); math.Log and math.Exp by their accuracy only", "relative errors of edges, cubes, difference of cubes (bounded by the width of the bin), product and quotient; composition with C125"),
    "C127": ("SphereBounds, ConvertIndices and Inside (Model/Finder.lean, Model/Bounds.lean)", "arithmetic modulo the number of cells; the coverage lemma of the subhalo search"),
    "C128": ("PennaFunc and Contains with rounding (Model/PennaRound.lean); sincos, pow, atan2 and acos by their accuracy only", "conditioning of the arccosine (square root of the error of the cosine), Lipschitz bounds of the powers, accumulated relative errors of the sum"),
    "C129": ("Volume, MeanRadius, MedianRadius, RadialRange with rounding (Model/SampleRound.lean), on the shells of C128", "accumulated relative errors of the sums; 1-Lipschitz order statistics and extrema; the error of a radius from C128"),
    "C130": ("Model/MassRound.lean: wrap, the displacement, the squared distance and the squared limits with float32 rounding, Contains and the angles of the shell particles with float64 rounding on top of Model/PennaRound.lean; the parallel sum is the section of Model/Par.lean with rounded addition.", "relative errors of the displacement, Lipschitz bounds for the polynomial in the unit vector (radius_move), C128 and C116 for the shell, C101_close for the sums."),
    "C131": ("insertPoints of the prof mode from float32 positions and velocities: displacement, shell test, NFW escape velocity, bin index and sums, every operation rounded (Model/BoundRound.lean)", "a calculus of relative errors in units of 2^-24 for the escape velocity (product, quotient, root, logarithm; the mass function of the NFW profile is at least 0.19), the accuracy of Contains (C128) and the bins of C125"),
    "C132": ("a cell of the maps of the potential mode: radius, limits, displacement, grid point, distance, sum and unit, every operation rounded (Model/PotRound.lean); the point of a cell is that of Model/Potential.lean", "relative errors in units of 2^-24 for radius, limits and grid, an absolute error for the displacement from the point, the triangle inequality for the distance, the accuracy of a sum of non-negative terms; a particle at the point of a cell as counterexample"),
    "C133": ("the phase mode for one halo and the particles of one file: limits, displacement, relative velocity, radial velocity or speed, bins and sums, every operation rounded (Model/PhaseRound.lean, Model/BinRound.lean)", "the bins of C125 composed with relative errors of displacement, velocity and limits; Cauchy-Schwarz for the radial velocity; a particle below the grid as counterexample"),
    "C134": ("Smooth, ConvolveAt and the use of SplashbackRadius for a line of sight with every operation rounded (Model/SmoothRound.lean); the kernel weights, log and exp are arguments with stated errors", "the loops of C52 with rounded sums, the accuracy of a rounded sum of products, logarithm of a rounded exponential; C43 (any ordered field) for the rational numbers the machine has, translated to the exact slopes; the pigeonhole principle for the profile that is not restored"),
    "C135": ("Smooth with its options for the four ways in which profile, values and slopes can share memory (Model/SmoothPlace.lean)", "the loops of ConvolveAt for targets with any contents; a constant profile is a fixed point of the convolution in place, and two exponentials follow; the slopes are exponentials; invariance of the stored kernels"),
    "C136": ("Model/TriRound: construction and evaluation of the trilinear interpolator on tables with every operation rounded to float64, the third coordinate looked up in the second table as in the code", "error analysis of the seven weighted means with the accumulation lemmas of C123; weights of grid points are exactly 0 or 1; a third table that differs is refuted"),
    "C137": ("Model/FracRound: bins, counts, reverse sums, radii and fractions of AngularFractionProfile with every float64 operation rounded, for the limits that prof mode passes; the sampled radii are given", "the bin lemma of C125 for inexact logarithms, counting by induction over the samples, monotonicity of rounding"),
    "C138": ("cosmo/param.go, the radius and mass loops and the unit factors with every float64 operation rounded; math.Pow as a function of known accuracy; the exponent range is not modelled (Model/RadiusRound.lean)", "errors as differences of logarithms: a calculus for products, quotients, sums with exact terms, square roots and powers, composed along the formulas and compared with the real-number theorems of C47"),
    "C139": ("the volume and the power that gives R_sp with every operation rounded (Model/RspRound.lean), for the shells of C129", "logarithmic error calculus of C138 and the volume theorem of C129"),
    "C140": ("calcUniformMass, the kernel radius, the density of a sphere and the background density with every operation rounded (Model/KernelRound.lean)", "logarithmic error calculus of C138; one float32 rounding at the end of the mass"),
    "C141": ("fix and the box width of io/gadget2.go with every float32 and float64 operation rounded (Model/GadgetRound.lean)", "C32 in float32 followed by the error of two roundings; the strict bound is refuted by a concrete box"),
    "C142": ("the conversions of units of io/bolshoi.go, io/bolshoiP.go and io/artio.go with every operation rounded (Model/UnitsRound.lean)", "rational calculus of relative errors (product, quotient, rounding); subtracting 1 from a float32 above 1/2 is exact"),
}
EXTRA = json.load(open('tools/plan_extra.json')) if glob.glob('tools/plan_extra.json') else {}
for k, v in EXTRA.items(): PLAN[k] = tuple(v)
props = {}
for l in open('properties.jsonl'):
    p = json.loads(l); props[p['id']] = p
man = {c['property']: c for c in json.load(open('MANIFEST.json'))['claims']}
where = {}
for f in sorted(glob.glob('lean/Verif/Props/*.lean')):
    for m in re.finditer(r'theorem (C\d+)_(\w+)', open(f).read()):
        where.setdefault(m[1], {}).setdefault(f.split('/')[-1], []).append(m[2])
head = open('tools/design_head.md').read()
out = [head.rstrip(), '', '## The properties one by one', '',
  'For each property: what is modelled, how it is proved, in which files, and what is missing or false. Theorems whose names end in `_false` are refutations: they show, with a',
  'concrete reachable case, that the code does not have that part of the property. `_partial` theorems hold under hypotheses that the property does not have.', '']
for k in sorted(props):
    p, c = props[k], man[k]
    mdl, how = PLAN.get(k, ('', ''))
    out.append(f"### {k} {p['title']} ({c['status']})")
    out.append('')
    out.append(f"Property: {p['statement']} Ranges over: {p['quantifier']}.")
    out.append('')
    if mdl: out.append(f"* Model: {mdl}.")
    if how: out.append(f"* Proof: {how}.")
    out.append('* Theorems: ' + '; '.join(f"`Props/{f}`: " + ', '.join(f"`{k}_{t}`" for t in ts) for f, ts in where.get(k, {}).items()) + '.')
    if c.get('note'): out.append(f"* {'Missing or false' if c['status']=='partial' else 'Remark'}: {c['note']}")
    out.append('')
out += ['## Findings: what the code does not do', '', 'The refuting theorems with their comments (the English part of the comment is the finding).', '']
for f in sorted(glob.glob('lean/Verif/Props/*.lean')):
    for m in re.finditer(r'/--((?:(?!-/).)*?)-/\s*(?:omit [^\n]*\n)?theorem (C\d+_\w*_(?:false|panics))\b', open(f).read(), re.S):
        out.append(f"* `{m[2]}` — " + ' '.join(m[1].split()))
out.append('')
open('DESIGN.md', 'w').write('\n'.join(out))
