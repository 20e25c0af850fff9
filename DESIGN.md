# Formal model of shellfish in Lean 4 — design

This file is written by `tools/mk_design.py` from `tools/design_head.md` (this part), `properties.jsonl`, `MANIFEST.json` and the notes in `tools/status.json`.

## Layout

* `properties.jsonl` — the properties C01, C02, … in English, with anchors in /repo.
* `lean/Verif/Model/*.lean` — the model of the Go code, function by function. The comment of every definition cites file and lines in /repo; simplifications are stated there and in the head of
  the file.
* `lean/Verif/Spec/*.lean` — specifications that are too long to stand beside the theorems (configuration files, catalogs, Gadget and BolshoiP files).
* `lean/Verif/Lemmas/*.lean` — helper lemmas; nothing in them has to be read to understand a statement.
* `lean/Verif/Props/*.lean` — small specifications (first section of each file) and the property theorems `Cnn_…`, with `example`s that show that a concrete, non-trivial case meets the hypotheses.
* `lean/Verif.lean` imports everything. `MANIFEST.json` (made by `tools/mk_manifest.py`) maps properties to theorems.
* `seeded/LOG.jsonl` — the mutation tests (`tools/mutate.py`): one line per edit of a model definition with the theorems that failed and those that were tightened because of it.

## Modelling conventions

* Go slices are `List`s; in-place mutation returns the new contents. Where aliasing or reuse of buffers matters (C20, C65, C67, C77, C80, C91, …) the reused state is part of the model and the
  theorems quantify over the history of calls.
* Out-of-range indexing, `panic` and error returns are explicit outcomes (`Option`, `Out`, `Outcome`, `Res`). A property that says "never panics" is a statement about these outcomes; where the code
  does panic there is an exact condition or a witness.
* `int` is `Int` or `Nat` without overflow (machine words are 64 bits). `uint32`/`uint64` arithmetic that wraps (random generators, byte order) is `BitVec` or explicit modulo.
* `float64`/`float32` are one of: bit patterns (files, caches: no arithmetic is done on them); elements of an arbitrary linear order (sorting); elements of an arbitrary linearly ordered field, with a
  floor function where the code truncates; or the real numbers, where roots, logarithms or angles occur. So arithmetic is exact: rounding, overflow, NaN and ±Inf are NOT modelled, except where a
  head comment says so (minus infinity in los, NaN in kde; a monotone rounding function in C32; round to nearest, ties to even, with 53 bits (float64) or 24 bits (float32) and unbounded exponent in C95, C102 to C104, C108, C112, C113, C116, C117, C119 to C123, C125, C126 and C128 to C142: in these, every operation of the modelled code is rounded, while overflow and subnormal numbers are not modelled; of `math.Log`, `math.Exp`, `math.Pow`, the trigonometric functions and their inverses only the accuracy stated in the theorem is used; NaN, infinities and signed zeros under comparison in C107; the decimal text of a float64 in C105).
* Loops are structural recursions or recursions with fuel; for the latter the theorems show that the fuel given by the model suffices.
* Goroutines, channels and locks are transition systems, and schedules are arbitrary lists of choices: theorems quantify over all interleavings (C18, C19, C49, C78, C79, C80, C94, C100, C101); so are processes that run at the same time (C106). Shared arrays that are
  written without locks are modelled at the level of single loads and stores (Model/Mem).
* Files are lists of bytes. An interrupted write leaves an arbitrary prefix of the bytes (C27, C58, C62, C90, C94).
* Random numbers are arguments of the model (any list of draws); C89 and C93 additionally take them as independent uniform random variables. The generators themselves are C15–C17.
* Iteration over a Go map is a list of entries in arbitrary order; the theorems hold for every order.
* Bugs are modelled as they are. Where the code does not have the property, the manifest says `partial`, a theorem `…_false` refutes the property with a reachable case, and a `…_partial` or exact
  (`iff`) theorem says what does hold.

## Trusted base

* Lean 4.33.0's kernel. No `native_decide`, no `bv_decide`, no axioms of our own, no unfinished proofs. `decide +kernel` is evaluated by the kernel.
* Axioms: of the property theorems in MANIFEST.json, all but a few depend on exactly `propext`, `Classical.choice`, `Quot.sound` (Mathlib's standard three); the others on a subset of these. The list per
  theorem is in `tools/axioms.txt` (output of `#print axioms`).
* The reading of /repo: that the definitions in `Model/` say what the Go code does. Nothing was executed; the mutation log tests the theorems, not the reading.
* Go's standard library as documented: `strings`, `strconv.Atoi/Itoa`, `encoding/binary`, `sort.Sort` (any sorted permutation), `os.File.Read`, `io.ReadFull`. `strconv.ParseFloat`, `%g` and
  `strings.ToLower` are parameters of the model with the assumptions stated in the theorems (`GoLib`, `FloatFmt`, `Lib`); C105 models the first two from their documentation and shows that the
  assumptions of C09 hold of them.
* Third-party packages that are not in /repo: `github.com/gonum/matrix` (product is Mathlib's, `Inverse` and `EigenSym` results are arguments constrained by hypotheses), `go-artio` (a fileset is what its calls
  deliver), `consistent_trees` (a tree file is what its functions return). `unsafe.Sizeof` values are as on amd64.

## What is modelled

Every Go file of the repository except the ones below is modelled; the citation comments give the lines. By package:

| package | model files |
|---|---|
| main (shellfish.go) | Main, Config, MemoConfig, MemoRuns, Pipe, Share |
| parse, version | Config, Text, Version |
| cmd: modes | IdMode, Tree, Coord, Shell, ShellRun, ShellFile, Stats, Prof, Profiles, Potential, Check, Group, Box, Modes, Examples, Par, Mem, ShellFull, Threads |
| cmd/catalog, cmd/env, cmd/halo, cmd/memo | Catalog, Env, Finder, FinderRound, Radius, Memo, MemoConfig, FloatText |
| io | Bytes, Io, Readers, Bolshoi, Artio, Filter, Round32 |
| los, los/geom, los/analyze, los/tree | Halo, Ring, Box, Pixel, Plucker, Slice, Platonic, Rotation, Shell, Penna, Kde, Smooth, Tree |
| math/sort, rand, mat, interpolate, calc; cosmo | Sort, Rand, Sobol, Mat, Interp, Cubic, Smooth, Deriv, Radius, Round |

Not modelled:

* logging (`logging`, `MemString`), profiling, the texts of messages and of the help (except the example configurations), standard error.
* scripts/ and los/analyze/ellipse_grid (stand-alone development scripts; scripts/filter_positions.go does not compile against the current `Read`), `KDETree.PlotLevel` and other plotting, test files.
* the `Ref` methods of math/interpolate (all of them panic "NYI") and the one-line wrappers (`EvalAll`, `New…Interpolator`).
* the Go generator behind `rand.Golang`, seeds from the clock.
* memory use, running time, and floating point rounding (except in the properties listed above).

## The properties one by one

For each property: what is modelled, how it is proved, in which files, and what is missing or false. Theorems whose names end in `_false` are refutations: they show, with a
concrete reachable case, that the code does not have that part of the property. `_partial` theorems hold under hypotheses that the property does not have.

### C01 Sorting returns the ascending permutation (proved)

Property: sort.Quick and sort.Shell rearrange the caller's slice in place into the ascending ordering of exactly the values that were in it (no value lost, duplicated or invented), and sort.Reverse reverses it; both algorithms always terminate without an index panic and agree with each other on every input. Ranges over: every slice length (including the <25 shell-sort cutoff and the partition path) and every content, over any totally ordered element type.

* Model: math/sort quick and shell sort over lists of any linear order, loops as recursion with fuel.
* Proof: loop invariants: permutation and sortedness; the fuel is shown to suffice.
* Theorems: `Props/Sort.lean`: `C01_quick_sorts`, `C01_shell_sorts`, `C01_quick_eq_shell`, `C01_reverse`.
* Remark: Quick and Shell sort every input; sorted permutation; agree.

### C02 Order statistics are exact (partial)

Property: sort.NthLargest(xs, n) for 1 <= n <= len(xs) returns the n-th element counted from the top of the ascending ordering of xs (with multiplicity), leaves xs unmodified, and sort.Median returns the middle element (odd length) or the mean of the two middle elements (even length). Ranges over: every non-empty slice, every n in range, every buffer contents.

* Model: NthLargest and Median of math/sort.
* Proof: partition specification; the result is an element of the sorted list; Median refuted for odd lengths.
* Theorems: `Props/Sort.lean`: `C02_nthLargest`, `C02_nthLargest_eq_sorted`, `C02_nthLargest_refuses`, `C02_median_false`, `C02_median_even_partial`, `C02_median_odd_rank`.
* Missing or false: NthLargest proved in full. The Median claim is false of the code (C02_median_false): proved for even lengths, exact rank given for odd lengths.

### C03 Percentile is the p-quantile counted from below (partial)

Property: sort.Percentile(xs, p) returns an element of xs such that about a fraction p of the values are at or below it: it is monotone non-decreasing in p, p = 0 gives the minimum and p = 1 gives the maximum. Ranges over: every non-empty slice and every p in [0,1].

* Model: Percentile of math/sort.
* Proof: rank of the result for every p; refuted as an ascending percentile.
* Theorems: `Props/Sort.lean`: `C03_percentile_rank`, `C03_percentile_false`, `C03_percentile_antitone`, `C03_percentile_half_partial`.
* Missing or false: The ascending-percentile reading is false of the code (C03_percentile_false): rank formula proved for all p and lists, order reversed.

### C04 Version comparison is a strict total order (proved)

Property: version.Parse accepts exactly the strings made of three non-negative decimal integers joined by dots, and version.Later compares them lexicographically: irreflexive, asymmetric, transitive, and exactly one of a later than b, b later than a, a = b holds. Ranges over: all strings and all triples of versions.

* Model: version.Parse on characters, Later on triples.
* Proof: lexicographic order laws.
* Theorems: `Props/Version.lean`: `C04_parse_iff`, `C04_parse_canonical`, `C04_later_iff`, `C04_later_irrefl`, `C04_later_asymm`, `C04_later_trans`, `C04_later_total`, `C04_later_error`.

### C05 Reading a configuration file assigns exactly what the file says (proved)

Property: After parse.ReadConfig succeeds, each declared variable mentioned in the file holds the conversion of the text to the right of its '=' and every declared variable not mentioned keeps its default; nothing else changes. It fails if the first significant line is not the expected [name] header, if a line has no '=', if an unknown variable is named, if a variable is named twice, or if a value does not convert, and the reported line number is the 1-based line of the file. Ranges over: all file contents, all sets of declared variables.

* Model: parse.ReadConfig on the characters of the file; variables are a store.
* Proof: equivalence with a declarative meaning of files (Spec/Config).
* Theorems: `Props/Config.lean`: `C05_success_iff`, `C05_errors`.
* Remark: strings.ToLower and strconv.ParseFloat are parameters; int range and list syntax modelled.

### C06 Configuration reading ignores layout (proved)

Property: Blank lines, '#' comments, spaces around names and values, the letter case of variable names and the order of the assignment lines do not affect the variables that parse.ReadConfig assigns. Ranges over: all files and all insertions of comments/blank lines/spaces and permutations of lines.

* Model: the same functions as C05.
* Proof: two files with the same assignments have the same meaning.
* Theorems: `Props/Layout.lean`: `C06_layout`.
* Remark: Blank lines, comments, blanks (not tabs: the code trims only blanks), letter case, order.

### C07 Command-line flags override the file and touch nothing else (proved)

Property: parse.ReadFlags(flags, vars) sets each variable named by a --Name flag to the comma-joined tokens that follow it (up to the next flag) and leaves all other variables as the configuration file or the default left them; unknown or repeated flags are errors, never silently dropped. Ranges over: all token sequences and all declared variable sets.

* Model: ReadFlags, getFlags, getConfig and the ReadConfig methods of the modes.
* Proof: equivalence with an assignment-list specification.
* Theorems: `Props/Flags.lean`: `C07_flags_iff`, `C07_override`, `C07_arguments`, `C07_bad_flags_refused`.

### C08 Config and flag errors are reported, never panics (partial)

Property: Whatever the user writes in a config file or in the flag list, parse.ReadConfig and parse.ReadFlags return nil or an error value; they do not panic. Ranges over: all file contents and token sequences.

* Model: the index expressions of ReadConfig/ReadFlags, panics explicit.
* Proof: exact condition for a panic, witness files.
* Theorems: `Props/Config.lean`: `C08_config_panic_iff`, `C08_config_false`, `C08_config_no_panic_partial`; `Props/Flags.lean`: `C08_flags_panic_iff`, `C08_flags_false`.
* Missing or false: False of the code (C08_config_false, C08_flags_false); exact panic conditions proved for files and flags.

### C09 Catalogs written by Shellfish read back unchanged (proved)

Property: For any rectangular set of integer columns, the text made by catalog.FormatCols is parsed by catalog.Parse (asked for the same columns in the written order) to exactly the same columns, for every column order given. Ranges over: all numbers of rows and columns, all integer values, all column orders.

* Model: catalog.FormatCols, Parse, ReadFile/ReadStdin up to the bytes.
* Proof: round trip through the word structure of lines.
* Theorems: `Props/CatalogWords.lean`: `C09_words`; `Props/CatalogWrite.lean`: `C09_round_trip`, `C09_aligned`; `Props/PipeMore.lean`: `C09_int64`.
* Remark: Integer and float columns, any order, any comment lines before; %.6g/ParseFloat are parameters (rd).

### C10 Catalog parsing ignores comments, blank lines and padding (partial)

Property: catalog.Parse returns, for each requested column index, the values of that column in line order, unaffected by '#' comments, empty lines or the amount of blank space between fields; rows whose number of fields differs from the first row are rejected with an error rather than crashing. Ranges over: all byte strings.

* Model: catalog.Parse with all its buffers.
* Proof: exact result or panic of every text.
* Theorems: `Props/Catalog.lean`: `C10_ok_iff`, `C10_panic_iff`, `C10_no_panic_partial`, `C10_longer_row_panics`, `C10_carriage_return_panics`.
* Missing or false: Exact result for every plain text; crash characterised. The claim that long rows are rejected is false of the code (C10_longer_row_panics).

### C100 The number of threads is the one that was set (partial)

Property: Every parallel section of the shell, stats, prof and potential modes is run by exactly Threads threads if Threads is positive and by one thread per core otherwise, whatever the runtime was set to before and however many sections ran before it. Ranges over: every value of Threads, every number of cores, every earlier setting of GOMAXPROCS, every number of sections.

* Model: the computation of the number of workers and the runtime's GOMAXPROCS, which returns the setting before the call (Model/Threads).
* Proof: induction on the number of calls; the first call of a stats run is a counterexample.
* Theorems: `Props/Threads.lean`: `C100_shell`, `C100_prof`, `C100_stats_partial`, `C100_stats_false`.
* Missing or false: False of the first parallel call of a stats run (C100_stats_false): it starts as many threads as the runtime was set to before, because the result of runtime.GOMAXPROCS is taken for the new setting. True of every later call, and of the shell, prof and potential modes.

### C101 Repeated runs give the same numbers (partial)

Property: Two runs of a mode on the same input give bit-identical results whatever the scheduler does, in floating point arithmetic, where addition is not associative: the densities, profiles and maps of the shell, prof and potential modes depend only on the number of threads, and the masses and particle lists of the stats mode are the same in every run. Ranges over: every schedule, every number of threads, every number of particles, every arithmetic (nothing is assumed of the operation), and float64 in particular.

* Model: the parallel sections with an arbitrary operation (Model/Par) and float64 addition (Model/Round).
* Proof: invariant: the messages are the values of the shares in an order of arrival; construction of a schedule for every order; induction over sums for the exact and the rounded case.
* Theorems: `Props/Repro.lean`: `C101_own_values`, `C101_joined`, `C101_collected`, `C101_two_partial`, `C101_exact_partial`, `C101_close`, `C101_masses_false`, `C101_ids_false`, `C101_threads_false`.
* Missing or false: Proved for the shell, prof and potential modes (C101_own_values, C101_joined: any arithmetic, fixed number of threads). For the stats mode C101_collected gives exactly the possible results: those of all orders of the workers. They agree for up to two threads and for masses that are multiples of one power of two (C101_two_partial, C101_exact_partial), and always up to rounding (C101_close); false in general (C101_masses_false, C101_ids_false; C101_threads_false for different numbers of threads).

### C102 Rounding does not lose particles from a file's bounding box (partial)

Property: The bounding box that is computed for the particles of a file, in the single precision arithmetic of the code, contains each of the particles, so that the file is read for every halo whose sphere contains one of them. Ranges over: every block of float32 positions of any length in a box of any width, every halo.

* Model: `boundingBox` with every operation rounded to 24 bits (`rn 24`); exponent range not limited.
* Proof: invariant over the fold with an error term per particle; witness: 2^23 particles each 2^-26 before the last one, for which the origin moves and the width does not.
* Theorems: `Props/Round32.lean`: `C102_box_partial`, `C102_drift_false`, `C102_missed_false`.
* Missing or false: false of the code: in float32 small steps of the origin are lost when they are added to the width (C102_drift_false, C102_missed_false); proved: containment up to n 2^-22 box widths

### C103 Halo ids survive the catalogue (partial)

Property: A halo id that is in the catalogue selects the halo's own row when it is requested, and an id that is not in the catalogue selects no row. Ranges over: every catalogue with different ids, every requested id.

* Model: `GetIDs` on the column read as float64 (`rn 53`), `NewIntFinder`, `Find`.
* Proof: integers up to 2^53 are fixed points of rounding; an odd integer above 2^53 is in no catalogue that has been read.
* Theorems: `Props/Round32.lean`: `C103_exact`, `C103_rows_partial`, `C103_large_false`, `C103_hidden_false`.
* Missing or false: false of the code: ids are read as float64, so that odd ids above 2^53 select no row (C103_large_false) or hide another halo (C103_hidden_false); proved for ids up to 2^53

### C104 The files of a Bolshoi snapshot partition the box in single precision (partial)

Property: In the float32 arithmetic of the Bolshoi and BolshoiP readers, every particle position in the box is inside the region of exactly one file of the snapshot, so that no particle is dropped or returned twice. Ranges over: every box width, every number of cells per dimension, every float32 position.

* Model: `ReadHeader` and `bolshoiInRange`/`vecInRange` in one dimension, every operation rounded to 24 bits.
* Proof: the two ends of a cell are within 2^-21 box widths of i box/n and (i+1) box/n; floor gives the cell; witnesses by computing the rounded ends.
* Theorems: `Props/Round32Bolshoi.lean`: `C104_inner_partial`, `C104_grid_partial`, `C104_lost_false`, `C104_twice_false`.
* Missing or false: false of the code: with 9 cells across 250 Mpc a float32 position is in no file (C104_lost_false), with 7 cells one is in two (C104_twice_false); proved away from the borders, and exactly if all multiples of the cell width are float32 numbers

### C105 Printed numbers are read back to six digits and do not drift along a pipe (proved)

Property: Whatever finite float64 a mode prints, the text is a decimal number nearest to it among those with six significant digits, and a mode that reads the text gets the float64 nearest to that number: the relative change is at most 5.001 parts in a million. Printing what was read gives the same text again, so that passing a catalogue through further modes changes its float columns no more; integer columns are read back exactly. Ranges over: every number of magnitude below 2^1023, every catalogue of integer and float columns, every order of the columns, every comment block.

* Model: Model/FloatText.lean: `%.6g` (six digits, ties to even, trailing zeros removed, the choice of notation) and ParseFloat (sign, digits, point, exponent, nearest float64) on texts.
* Proof: the text is parsed symbolically: digits and zeros before and behind the point, exponent; the digits of a number within 2^-53 of a six-digit number are its digits; C09_round_trip instantiated.
* Theorems: `Props/FloatText.lean`: `C105_read`, `C105_error`, `C105_stable`, `C105_catalog`.
* Remark: Go's fmt.Sprintf("%.6g") and strconv.ParseFloat are modelled on rational numbers from the source of package strconv: no infinities, NaN, subnormal numbers or signed zeros.

### C106 Commands that run at the same time do not spoil each other's cache files (partial)

Property: The processes of a shell pipe may be scheduled in any way: the output of the last one, the disk and the cache files are those of the commands run one after the other, and the pipe cannot get stuck. However many commands look for, make and read the same cache file at the same time, the file holds the complete content once they are all through, and a command that finds a cache file goes on with its whole content. Ranges over: every number of commands, every schedule of their steps, every content of the cache file, every pipe.

* Model: Model/Share.lean: the steps of a command at a cache file (look, create or truncate, write byte by byte at the own offset, read back), any number of commands and any schedule; pipes of processes, each of which reads its whole input before it starts.
* Proof: an invariant over all schedules (the file is a prefix of the content with holes that a writer at work still has to fill); pipes by induction on the processes; schedules that make a command go on with zero headers or without halos.
* Theorems: `Props/Share.lean`: `C106_complete`, `C106_late_partial`, `C106_zero_headers_false`, `C106_no_halos_false`, `C106_pipe`, `C106_pipe_same`, `C106_pipe_ends`, `C106_pipe_cache`.
* Missing or false: Proved for pipes (every schedule gives the outputs, the disk and the cache files of the commands run one after the other, and the pipe cannot get stuck) and for the final content of the cache file (complete once all commands are through). False for unrelated commands at the same time: one that finds the cache file while another is making it goes on with zero headers (C106_zero_headers_false) or with a catalogue without halos (C106_no_halos_false); what holds is C106_late_partial: a command that looks when nobody is making the file gets the whole content.

### C107 Sorting copes with every float64 (partial)

Property: sort.Quick, sort.Shell, sort.NthLargest, sort.Median and sort.Percentile accept every slice of float64, with NaN, infinities and both zeros in any place: the sorts end without a panic and keep exactly the values, the order statistics return one of the values. A slice without NaN is sorted by value, and the n-th largest value has that rank. A NaN does not disturb the order of the other values. Ranges over: every length, every content, every place of NaN, infinities and zeros of both signs, every rank.

* Model: Model/Sort.lean over any type with a comparison; a float64 is NaN or a value with a sign bit, compared as in IEEE 754.
* Proof: the invariants of C01 in the form `not less`, for comparisons that are only asymmetric; naturality of all functions in maps that keep the comparison carries C01 and C02 over to values without NaN; a counterexample with one NaN.
* Theorems: `Props/SortNaN.lean`: `C107_keeps`, `C107_sorted`, `C107_member`, `C107_rank`, `C107_nan_false`.
* Missing or false: Proved for every slice: no panic, the values are kept, order statistics are members; sorted and ranked by value when there is no NaN. The last sentence is false: two values on the two sides of a NaN stay in descending order and the largest value is not found (C107_nan_false).

### C108 The subhalo search is right in float64 arithmetic (partial)

Property: With coordinates, radii and box width rounded to float64 at every step, inserting a catalogue of positions in the box into a grid and calling FindSubhalos does not panic; Subhalos(i) lists, ascending and each once, exactly the later halos that pass the program's own distance test (whatever cells they fell into), Hosts is the converse and the counts agree. The test accepts every halo inside the scaled radius and rejects every halo outside of it, except within a few roundings of the box width. The caller's radii are unchanged afterwards. Ranges over: every number of cells, every box width, every catalogue of float64 positions and radii, every multiplier.

* Model: Model/FinderRound.lean (SphereBounds, the nearest image, markSubhalos, FindSubhalos) and Model/Round.lean (NewGrid, Insert) with a rounding after every operation.
* Proof: monotonicity of rounding for cells on the same side of the periodic boundary; error bounds of 2^-48 box widths against the search radius (at least twice the radius of the test) on the other side; counting of the visited cells as in C23; the caller's radii and tiny radii by counterexample.
* Theorems: `Props/FinderRound.lean`: `C108_search_partial`, `C108_accuracy`, `C108_distances_partial`, `C108_radii`, `C108_radii_false`, `C108_tiny_false`.
* Missing or false: Proved for catalogues in the box (clearly below its end, or a power of two of cells), radii that are zero or at least 2^-39 box widths and searches that do not reach around the box: the grid search equals the search without a grid (C108_search_partial), and the test is the distance test up to 2^-48 box widths (C108_accuracy, C108_distances_partial). False otherwise: halos just below the end of the box (C95_grid_false), a tiny radius at the periodic boundary loses a halo at the same place (C108_tiny_false), the caller's radii come back changed in the last bit (C108_radii_false, bounded by C108_radii).

### C109 Sobol points fill squares and cubes evenly (partial)

Property: The points of a Sobol sequence are spaced evenly in more than one dimension: for any two coordinates, in every aligned block of 2^p successive points, every box of a dyadic grid with 2^(p-2) equal boxes of any shape holds exactly four points (two points with 2^(p-1) boxes for the first two coordinates; eight points with 2^(p-3) boxes for the first three coordinates), so that no region of the square stays empty. Ranges over: all pairs of coordinates, all p up to 30, all aligned blocks of the sequence, all dyadic grid shapes and boxes.

* Model: the Sobol generator of Model/Sobol.lean (every direction number, every call).
* Proof: linear algebra over GF(2): the direction numbers are computed from the model by the kernel, their leading bits are eliminated by a verified elimination for every grid shape (a finite table: p ≤ 30), and the count of points per box follows from the size of the kernel for every block and box; the empty boxes follow from a parity that every direction number satisfies.
* Theorems: `Props/SobolNet.lean`: `C109_square`, `C109_first_and_other`, `C109_cube`, `C109_empty_boxes_false`.
* Missing or false: Exact for the first two coordinates, for the first and any other, and for the first three. False of the third and fourth, and of the fifth and sixth coordinates: C109_empty_boxes_false shows boxes of area 1/16 that no point of the whole sequence ever enters (the recurrence reads index j-1 for every term).

### C11 Catalog headers label each column exactly once (proved)

Property: The comment header made by catalog.CommentString labels the columns 0 .. total-1 with consecutive disjoint ranges, in the given order, whose lengths are the declared column sizes. Ranges over: all numbers of columns, sizes and orders.

* Model: CommentString and the column ranges.
* Proof: ranges partition the columns.
* Theorems: `Props/CatalogWrite.lean`: `C11_header`, `C11_ranges_partition`.

### C110 Axes of a shell are lengths of the shell, for shells of all shapes (partial)

Property: Shell.Axes returns the lengths of the three axes of an ellipsoidal shell: for a sphere of radius R all three are R within a few percent; it returns for every shell with positive axes, however elongated or flat, and its result does not depend on the shells that were measured before. Ranges over: all shells (all eigenvalues and eigenvectors of their inertia tensors), all sequences of earlier calls of Axes.

* Model: the five tables of ellipse_grid/grid.go number by number (in units of 1e-5), the construction of the three interpolators and sequences of calls of Axes; the eigenvalue routine of mat64 is a parameter.
* Proof: the invariant of C65 carried through all calls; the range of natural splines from C42; kernel computation over the tables for the symmetry; for the sphere a closed form of the surface normal and four draws at the corners of a tetrahedron.
* Theorems: `Props/EllipseGrid.lean`: `C110_history`, `C110_range_partial`, `C110_oblate_false`, `C110_nodes_partial`, `C110_shapes`, `C110_flipped`; `Props/ShellSphere.lean`: `C110_sphere_false`, `C110_elongated_false`.
* Missing or false: False of the code: the table for the longest axis is upside down (C110_flipped), so that a sphere of radius R is given the axes 1.1153 R, 1.1164 R, 1.1073 R (C110_sphere_false); shells with an axis ratio below 0.2069 make Axes, and with it the stats mode, panic (C110_elongated_false), and so do flat shells with an exact tie (C110_oblate_false). Proved: independence of history, the exact set of shapes that panic, the corrections at the nodes of the tables.

### C111 Sampled distributions of radii converge to those of the shell (proved)

Property: With independent uniform random numbers, and with probability one as the number of samples grows: every value of RadiusHistogram converges to the fraction of the sky whose radii lie in its bin (of the part with radii in the range), divided by the bin width; every value of AngularFractionProfile, for a shell inside of the range of radii, converges to the fraction of the sky in which the shell reaches the lower edge of the bin; MedianRadius converges to the median of the radii over the sky when there is only one; and for continuous shells RadialRange converges to the smallest and largest radius and MaxDiff to the largest difference of the two shells. Ranges over: all bounded measurable (or continuous) shells, all numbers of bins and ranges, all probability spaces with independent uniform draws, almost all sequences of draws.

* Model: the statistics of Model/Shell.lean on the first n of a sequence of independent uniform draws; the fraction of the sky is an integral over the sphere.
* Proof: the strong law of large numbers for the indicators of the bins, with the change of variables of C89; order statistics from C02; open sets of directions have positive probability, so that extremes are approached.
* Theorems: `Props/ShellLimit.lean`: `C111_histogram`, `C111_fraction`, `C111_median`, `C111_range`, `C111_max_difference`.
* Remark: Real arithmetic and independent uniform draws are assumed, as in C89.

### C112 In machine arithmetic the density of a particle ends where its sphere ends (partial)

Property: In float64 arithmetic, a particle whose sphere contains the center of a ring adds its density to each line of sight of the ring only up to the radius at which the line leaves the sphere, up to rounding. Ranges over: all spheres around the center of a ring, all directions of lines of sight, all rings, all values of the logarithm.

* Model: insertToRing for circles around the center, oneValIntrDist, ProfileRing.Insert and Retrieve with float64 rounding, the correctly rounded square root and the NaN of negative roots (Model/LosRound.lean); the logarithm is any function with Go's special values.
* Proof: when the far end is NaN is characterised; otherwise error bounds of the rounded chord; induction over the lines of sight for the ring; a concrete sphere and the line at 45 degrees as counterexample.
* Theorems: `Props/LosRound.lean`: `C112_nan`, `C112_end_partial`, `C112_accuracy_partial`, `C112_endless`, `C112_line_false`, `C112_end_false`.
* Missing or false: False of the code: when the rounded square of the impact parameter is larger than the rounded squared distance of the center, the far end of the line is NaN, both comparisons of Insert are false, and the density of the particle is added to all bins up to rMax (C112_nan, C112_endless, C112_line_false for every such sphere, C112_end_false for a sphere of radius 2 around (1,-1,0) and the line at 45 degrees). Proved for all other lines: the far end is a non-negative number, at most the distance plus the radius, and exact up to 2^-25 of them (C112_end_partial, C112_accuracy_partial).

### C113 In machine arithmetic every particle of a median profile is counted in a pixel of its own hemisphere (partial)

Property: In float32, float64 and 64 bit integer arithmetic, the median profiles of the prof mode count every particle in the radial range in an existing pixel (no index panic), and in the hemisphere, south or north, in which its polar angle lies; a particle straight above or below the halo is counted in the pixel at that pole. Ranges over: all particle positions in float32, all pixel levels, all implementations of the trigonometric functions with the right ranges and special values.

* Model: cmd/prof.go:548-564 for one particle and all of los/geom/pixel.go with float32, float64, NaN and wrapping 64 bit integers (Model/PixelRound.lean); Atan2, Acos and Cos are parameters of which only ranges and special values are used; NaN to int is that of amd64.
* Proof: the 22 first rings by the exact roundings of the largest azimuth below a turn and monotonicity; NaN by evaluation of the integer overflow; three counterexamples; the correctly rounded functions meet all hypotheses.
* Theorems: `Props/PixelRound.lean`: `C113_nan_disk`, `C113_range_partial`, `C113_nan_false`, `C113_pole_false`, `C113_level_false`.
* Missing or false: False of the code: the squared distance is rounded to float32, so that within 2^-12 of a pole dz/r can be larger than 1, Acos is NaN, the comparison theta > Pi/2 is false and the NaN becomes the smallest integer, whose arithmetic overflows to ring 1: the particle is counted in the first ring of the north, also when it is at the south pole (C113_nan_disk, C113_nan_false, C113_pole_false), and at MedianPixelLevel 1 the program panics; at level 24 the index in a ring rounds up to a full turn and the program panics (C113_level_false). Proved for levels 2 to 23 and all particles with a polar angle (C113_range_partial).

### C114 Different snapshots and blocks are read from different files (partial)

Property: When the program accepts a snapshot format and its meanings, no two blocks of the simulation (of the same snapshot or of different snapshots) get the same file name, so that no file is read twice in place of another one. Ranges over: all formats built from text, %%, %d and %s with widths and zero padding, all meanings, all ranges of snapshots and blocks, all scale factor files.

* Model: fmt.Sprintf for text, %%, %d, %s, widths and zero padding (Model/Sprintf.lean, a model of the library), together with the enumeration of Model/Env.lean.
* Proof: printed integers and padded strings are injective; a separator that occurs in no argument splits names uniquely (induction over the parts of the format); C12 for the enumeration; counterexamples by evaluation.
* Theorems: `Props/Names.lean`: `C114_distinct_partial`, `C114_adjacent_false`, `C114_scale_false`.
* Missing or false: False of the code: formats without separators such as s%d%d are accepted, and block 11 of snapshot 1 has the file of block 1 of snapshot 11 (C114_adjacent_false); with scale factors instead of snapshot numbers, equal lines of the scale factor file share all files (C114_scale_false). Proved for formats that name the snapshot by number and have after every argument but a last one a character that occurs in no argument (C114_distinct_partial), which includes the format of the example configuration.

### C115 A halo catalogue that cannot be read completely is refused (partial)

Property: Reading a halo catalogue from a file either returns exactly the rows the complete file holds or reports an error. If only a leading part of the file's bytes can be read (the file is being written, is on a failing disk, or has shrunk since its size was asked for), the reader never returns a table as if that part were the file. Ranges over: every file content, every number of bytes that the read system calls deliver, every selection of columns.

* Model: ReadFile of cmd/catalog: the buffer of the size that Stat reports, filled with the bytes the reader delivers and NULs, then Parse (Model/CatalogFile.lean).
* Proof: the table of a prefix is a prefix of the table plus at most one cut row (induction over the text); NULs make the number parser fail; counterexamples by evaluation.
* Theorems: `Props/CatalogFile.lean`: `C115_cut`, `C115_short_partial`, `C115_inner_partial`, `C115_broken_partial`, `C115_noticed_partial`, `C115_short_false`, `C115_comment_false`, `C115_unused_false`.
* Missing or false: False as stated: the error of io.ReadAtLeast is dropped and a file shorter or longer than its reported size is read as another catalogue (C115_short_false, C115_comment_false, C115_unused_false). Proved: what can be returned then is the leading rows plus at most one cut row; with no cut column asked for, exactly leading rows; NUL padding is noticed when the last column is asked for and no comment is cut.

### C116 Every direction has polar angles in machine arithmetic (partial)

Property: For every non-zero vector the polar angle and the sine computed from it by acos(z/r) and the square root of 1 minus the square of z/r are numbers: rounding never pushes the quotient outside [-1, 1]. This holds for the float64 points of the shell integrals and of the Penna fit, for the ring normals, and for the float32 particle positions that are tested against a shell. Ranges over: all float64 and float32 coordinates, all roundings of the operations.

* Model: acos(z/r) and the sine with every operation rounded, in float64 and float32 (Model/PolarRound.lean); math.Sqrt is correctly rounded, math.Acos is NaN exactly outside [-1, 1].
* Proof: monotonicity of rounding gives r >= |z| in float64; relative error bounds off the axis in float32; a concrete float32 point on the axis refutes the rest.
* Theorems: `Props/PolarRound.lean`: `C116_float64`, `C116_sine`, `C116_float32_partial`, `C116_normals`, `C116_axis_false`.
* Missing or false: Proved for float64 points, the sine, and ring normals (all draws). False for float32 particle positions very near the axis (C116_axis_false): the quotient exceeds 1, the angle is NaN and the particle is not listed; proved for points at least a two-thousandth of their height from the axis.

### C117 The bootstrap error of a profile is a number (partial)

Property: The error that prof mode prints for the percentile of a profile, the root of the mean square minus the squared mean of the resampled percentiles, is a non-negative number close to the true spread of the resampled percentiles; in particular it is zero when all profiles agree. Ranges over: all profile values, all percentiles, all random draws, any number of samples.

* Model: bootstrapErrorPercentile with every operation rounded to float64, over arbitrary random draws (Model/BootRound.lean).
* Proof: standard error analysis of the two sums by induction; a concrete value (0.1, three samples) whose rounded variance is negative.
* Theorems: `Props/BootRound.lean`: `C117_nan`, `C117_accurate_partial`, `C117_equal_false`.
* Missing or false: False when the resampled percentiles (nearly) agree: three equal samples of 0.1 give NaN (C117_equal_false). Proved: exact condition for NaN, and accuracy when the variance exceeds the rounding level.

### C118 Interpolators evaluate lists of points pointwise, whatever slices are shared (partial)

Property: EvalAll of every interpolator returns, in order, the value at each of the given points, writes them to the output slice if one is given, and changes nothing else. The caller may reuse his slices: the table an interpolator was made from, and the slice of points as output slice. Ranges over: all interpolators, tables, points, and all ways in which the slices overlap in memory.

* Model: a heap of arrays with slices as windows; the loop of EvalAll over one to three slices of coordinates, Linear and Spline with the slices they keep (Model/EvalAll.lean).
* Proof: loop invariant: the elements already written are values at the original points and everything else is unchanged; counterexamples for overlapping slices.
* Theorems: `Props/EvalAll.lean`: `C118_pointwise_partial`, `C118_fresh`, `C118_short`, `C118_tables`, `C118_made`, `C118_spline_partial`, `C118_shifted_false`, `C118_table_false`, `C118_ends_false`.
* Missing or false: Proved for fresh output, disjoint output, and evaluation in place; tables not written to. False when the output slice overlaps the points with a shift (C118_shifted_false), is the table (C118_table_false), or when the values of a spline are overwritten (C118_ends_false).

### C119 A sphere beside the centre raises the lines it crosses, in machine arithmetic (partial)

Property: In machine arithmetic, inserting a sphere that does not contain the centre of a ring never panics, visits each line of sight at most once, raises every line of sight that crosses the sphere between the points where the line enters and leaves it, and leaves lines that miss the sphere unchanged. Ranges over: all sphere positions, radii and line counts, all implementations of atan2, asin, sin and cos with small errors, all rings.

* Model: los/halo.go: insertToRing for circles beside the centre (idxRange, halfAngularWidth, twoValIntrDist), ring directions; float64 rounding, NaN and its conversion to int; atan2, asin, sincos as functions with errors up to 2^-50.
* Proof: error analysis of the rounded angles against the arc of the circle (margin of the arcsine from the margin of the squares), of the impact parameter and of the square roots; interval arithmetic for the indices.
* Theorems: `Props/LosOuterEnds.lean`: `C119_long_partial`, `C119_miss_partial`, `C119_safe`, `C119_center_false`, `C119_once_partial`, `C119_once_false`, `C119_insert_partial`.
* Missing or false: C119_long_partial: chords longer than about 2^-19 of the scale are raised, with both ends accurate to a 2^-19 of the scale; C119_miss_partial, C119_insert_partial: lines that miss by that margin are untouched; C119_safe: no panic unless the projected centre is the ring's centre (C119_center_false); C119_once_partial for five or more lines, C119_once_false for one line. atan2, asin and sincos are parameters with errors up to 2^-50.

### C12 Snapshot files are enumerated completely and uniquely (partial)

Property: The environment built from a snapshot format lists, for each snapshot and each combination of block indices, exactly one file name; the list per snapshot has length equal to the product of the block counts, no combination is missing or repeated, and ParticleCatalog(snap, block) returns the names of the requested snapshot. Ranges over: all numbers and lengths of format columns, all snapshots and blocks.

* Model: the Init functions of cmd/env, ParticleCatalog, interleave.
* Proof: mixed radix digits; bijection between files and index tuples.
* Theorems: `Props/Env.lean`: `C12_interleave`, `C12_snapshot_files`, `C12_format_without_snapshot_false`, `C12_nil_false`, `C12_nil_partial`, `C12_gotetra`.
* Missing or false: Proved for formats that mention the snapshot (number or scale factor) and for nil snapshots starting at 0; false otherwise (C12_format_without_snapshot_false, C12_nil_false).

### C120 Random numbers stay in their range in machine arithmetic (partial)

Property: Also with the rounding of float64, the generators return numbers in [0, 1), Uniform(low, high) and UniformInt(low, high) return numbers at least low and below high, and drawing a batch gives the same numbers as drawing them one at a time. Ranges over: all seeds, all states reachable by draws, all bounds and batch lengths, all digits the seed generator can supply.

* Model: math/rand: Xorshift, Tausworthe, Uniform, UniformAt, UniformInt with float64 rounding; digits of the Golang generator as given.
* Proof: the machine runs through the same states as exact arithmetic (partial correctness of the recursion) and rounds; values below 1 are below by 2^-32, which survives rounding; invariants over reachable states; counterexamples where rounding reaches the bound.
* Theorems: `Props/RandRound.lean`: `C120_next`, `C120_batch`, `C120_uniform_partial`, `C120_axes`, `C120_uniformAt`, `C120_int_partial`, `C120_taus_partial`, `C120_taus_batch`, `C120_taus_false`, `C120_uniform_false`, `C120_int_false`.
* Missing or false: Proved for Xorshift: Next in [0,1), batches, Uniform in [low, high] and below high when |high| <= 2^19 (high-low), UniformInt for bounds up to 2^18. False in general: Uniform(2^53, 2^53+2) and UniformInt there can return the upper bound (C120_uniform_false, C120_int_false), and Tausworthe can return 1 by rounding (C120_taus_false); for it [0,1] is proved.

### C121 Densities along a line of sight in machine arithmetic (partial)

Property: With the rounding of float64, inserting any plateaus of density into the profiles of a ring never panics, and the densities then read from a line of sight equal the sum of the overlaps of the plateaus with each radial bin, or the default density where that is larger, whatever way the insertions are distributed over threads. As stated with equality this is false; it holds up to a bound proportional to the number of insertions, bins and threads times the sum of the densities, and the result is never below the default density. Ranges over: all rings, lists of insertions with ends beyond the outer radius or clearly below it, default densities, distributions of the insertions over workers and states of their scratch buffers.

* Model: los/profile_ring.go with float64 rounding, GetRhos, the split/insert/join of the workers.
* Proof: invariant: each derivative is a sum of terms with a bounded number of roundings, and their running sum is the coverage up to a bounded error; relative errors compound as (1+2^-53)^m; counterexamples with explicit roundings.
* Theorems: `Props/RingRound.lean`: `C121_profile_partial`, `C121_threads_partial`, `C121_negative_false`, `C121_threads_false`.
* Missing or false: Proved: no panic, result at least the default density and within (calls+bins+workers)/2^47 times the sum of the densities of the exact coverage, for every distribution over workers (C121_profile_partial, C121_threads_partial). Equality is false: a dense and a thin plateau leave a negative density behind (C121_negative_false), and one and two threads differ in the last bit (C121_threads_false). Missing: plateaus ending within 2^-45 of the outer radius, where the index can be out of range (C95_ring_false).

### C122 In machine arithmetic, too, the files with a halo's particles are read for it (partial)

Property: With the regions of the files computed in float32 from their particles and compared with the halos in float64, every file that has a particle closer to the center of a halo than its radius, in some periodic image, is read for that halo, and no halo is listed twice. As stated this is false; it holds for particles inside by a margin of (n+1)/2^22 box widths, n being the number of particles of the file. Ranges over: all snapshots (any number of files and particles with float32 positions in the box), all lists of halos with centers in the box and radii with region width plus radius up to half the box, or files that fill the box.

* Model: boundingBox in float32, wrapDist, inRange, SheetIntersect and the binning of halos over files in float64.
* Proof: error bounds of the three or four roundings in each comparison, cases by periodic image; the region of a file contains its particles up to n roundings and its end does not move down; witnesses with explicit roundings, one of them symbolic in the number of particles.
* Theorems: `Props/SelectRound.lean`: `C122_selected_partial`, `C122_subset`, `C122_rounding_false`, `C122_drift_false`.
* Missing or false: Proved with a margin of (n+1)/2^22 box widths for files of n particles (C122_selected_partial) and small or box-filling regions; nothing is invented or repeated (C122_subset). False without a margin (C122_rounding_false) and with small margins for large files: with 2^23 particles the region can lose 1/8 of a length unit of a box of 100 and the file is skipped although a particle is at half the halo's radius (C122_drift_false).

### C123 Interpolated values in machine arithmetic (proved)

Property: In double precision, the linear interpolator on a strictly increasing table of two or more points panics exactly for arguments outside of the table, and inside it returns the straight line between the two neighbouring table points up to V/2^47, where V bounds the size of the table's values; the bilinear interpolator panics exactly outside of its grid and returns the bilinear surface of the grid cell up to V/2^48. It does not hold exactly: rounding makes the interpolator miss the table's own points. Ranges over: for every strictly increasing table (or pair of tables) of two or more points, every list of values of matching length, every argument.

* Model: `init` and `search` on tables, `NewLinear`/`Linear.Eval` and `NewBiLinear`/`BiLinear.Eval` with every float64 operation rounded (Model/InterpRound.lean).
* Proof: relative-error calculus `Acc` for rounded products, quotients and sums; the rounded guess is checked by the code itself, otherwise the binary search of C12; witness of a missed table point by exact rounding of 1/49 and 49·r(1/49).
* Theorems: `Props/InterpRound.lean`: `C123_linear`, `C123_bilinear`, `C123_knots_false`.
* Remark: Full for the table searchers: C123_linear, C123_bilinear; C123_knots_false shows that the bound cannot be zero. Uniform grids: C95 (search) only.

### C124 The random numbers cover their range exactly evenly, and the ring normals are always found (proved)

Property: With any seed the default random generator runs through its numbers in a cycle of 2^128-2^96: from any point on, the next 2^128-2^96 numbers contain each k/(2^32-1), 0 <= k < 2^32-1, exactly 2^96 times (and these, rounded to double precision, stay different), and then the sequence repeats. All seeds give the same cycle, entered at different places. Hence the search for the random orientations of the rings, which refuses points outside the unit sphere, ends for every seed and every number of rings, never divides by zero, and returns unit vectors (up to 3/2^24 in the square of the length) whose polar angles are numbers. Ranges over: for every seed, every number of earlier draws, every representable value, every number of rings.

* Model: the Xorshift state update and draws of C15/C120; `normVecs` in exact arithmetic (Model/ShellRun.lean) and with rounding (Model/NormalsRound.lean).
* Proof: the update is linear over the field with two elements; powers of it are computed modulo its characteristic polynomial by a kernel-checked squaring chain: the power 2^128-1 is the identity and (2^128-1)/q is not for each of the nine primes q (the largest proved prime by Pratt's criterion), so that every orbit of non-zero states has full length; counting the states with a given last word gives the frequencies; a window of central numbers somewhere in the cycle ends the search.
* Theorems: `Props/XorPeriod.lean`: `C124_words`, `C124_consecutive`, `C124_uniform`, `C124_repeats`, `C124_seeds`, `C124_uniform64`, `C124_normals`, `C124_centre`, `C124_normals64`.
* Remark: full period and exact equidistribution of the generator (exact and rounded numbers), one cycle for all seeds; termination, length and angles of the ring normals

### C125 In machine arithmetic every particle of a profile is counted in the bin it belongs to (proved)

Property: With the rounding of single and double precision, binning never panics. In prof mode a particle is in at most one radial bin, which exists; the logarithm of its distance is within the bin's edges up to 2^-20, a particle that is left out is nearer than the inner limit or farther than the outer one up to one part in 2^20 (or fails the test of the profile type), and each bin holds the sum of the masses of its particles in the order of the file, with a relative error of at most n/2^52. The same holds of the radial bins of median profiles. In phase mode a particle is in at most one cell: its distance respects the radial edges up to one part in 2^21, its velocity the velocity edges up to one part in 2^48 (except that the first velocity bin reaches one bin below the limit), and that velocity is the exact one up to a 2^-20th of the particle's speed and Hubble flow. Ranges over: for every list of particles, every halo radius, every limits and numbers of bins within wide ranges, every logarithm function accurate to four units in the last place.

* Model: insertPoints, the radial bin of insertMedianPoints and insertPhasePoints in float32/float64 with rounding (Model/BinRound.lean); math.Log by its accuracy only; the displacements are given.
* Proof: relative error of the squared distance, of the edges and of the quotient; the rounded logarithms are off by less than one bin, and the last bin is guarded; the sums follow by induction on the particles.
* Theorems: `Props/BinRound.lean`: `C125_mass`, `C125_prof`, `C125_median`, `C125_phase`, `C125_speed`.
* Remark: prof, median and phase binning with rounding; hypotheses ProfOk/PhaseGrid.Ok (limits within 2^±64, bins wider than 2^-20 in the logarithm, at most 2^40 bins); overflow and subnormal numbers are not modelled

### C126 The printed density of a bin is the mass in the bin divided by its volume, in machine arithmetic (proved)

Property: For every halo, prof mode returns as many radii and densities as there are bins; the radii are the logarithmic centres of the bins (relative error 2^-36), all densities are numbers, and a density times the exact volume of its shell is the exact mass of the particles in the bin up to a relative error of (1+1/w)/2^30 + k/2^52 (w the logarithmic width of a bin, k the number of particles in it), although the bins are filled with a radius that went through single precision and the volumes are computed with one that did not. The particles in a bin are those whose distance is within its edges up to two millionths. In phase mode the same holds of radii and velocities (the centres of the bins) and of the densities of the cells, with a relative error of rbins/2^44 + k/2^52; the velocity of a particle in a cell is within the cell's edges up to a millionth of the velocity limit, of its speed and of its Hubble flow, except that the first velocity bin reaches one bin below the limit. Ranges over: for every list of particles with nonnegative masses, every halo radius and velocity, every limits and numbers of bins within wide ranges, every logarithm and exponential accurate to four units in the last place.

* Model: processProfile and processPhaseProfile with rounding, composed with the binning of C125 (Model/DensityRound.lean); math.Log and math.Exp by their accuracy only.
* Proof: relative errors of edges, cubes, difference of cubes (bounded by the width of the bin), product and quotient; composition with C125.
* Theorems: `Props/DensityRound.lean`: `C126_prof`, `C126_phase`.
* Remark: densities, radii and velocities of the prof and phase modes with rounding; median and error profiles divide other sums by the same volumes and are not included; overflow and subnormal numbers are not modelled

### C127 Cell boxes are right across the periodic boundary (proved)

Property: For the box of grid cells around a sphere: Inside says of every cell of the grid whether it is one of the cells of the box (counted around the ring of cells, whatever the length of the box and whether or not it crosses the boundary); ConvertIndices gives the number of steps from the first cell of the box to a cell, which is less than the length of the box exactly for the cells inside; the cells that the search reads are those for which Inside holds; and every point within the radius of a periodic image of the centre lies in a cell that is inside. Ranges over: for every box whose first cell is in the grid, every cell of the grid, every number of cells; every centre, radius (2r + one cell <= box width) and point.

* Model: SphereBounds, ConvertIndices and Inside (Model/Finder.lean, Model/Bounds.lean).
* Proof: arithmetic modulo the number of cells; the coverage lemma of the subhalo search.
* Theorems: `Props/Bounds.lean`: `C127_inside`, `C127_convert`, `C127_visited`, `C127_sphere`, `C127_outside_false`.
* Remark: For cells of the grid (C127_outside_false: numbers outside of the grid are not brought into it, which the English claim does not say). Exact arithmetic for the sphere.

### C128 Whether a point is inside a fitted shell is decided correctly in machine arithmetic (proved)

Property: For every set of Penna coefficients and every point except the centre, the radius of the shell in the direction of the point that the program computes in double precision (via the angles of the point) differs from the exact polynomial in the components of the unit vector by at most ((I+J+K)(4e+2^-23) + (IJK+5)/2^52) times the sum of the sizes of the coefficients, where e is the accuracy of atan2, acos, sincos and pow. Contains is therefore right for every point whose distance differs from the shell by more than this and one part in 2^50 of the distance; for order 3 two millionths of the size suffice. The centre is never inside. It is not accurate to machine precision: near the poles points that are inside by 2^-28 are said to be outside. Ranges over: for all coefficients, orders with at most 2^50 coefficients, points, and all implementations of the functions of package math with the given accuracy.

* Model: PennaFunc and Contains with rounding (Model/PennaRound.lean); sincos, pow, atan2 and acos by their accuracy only.
* Proof: conditioning of the arccosine (square root of the error of the cosine), Lipschitz bounds of the powers, accumulated relative errors of the sum.
* Theorems: `Props/PennaRound.lean`: `C128_radius`, `C128_contains`, `C128_centre`, `C128_order3`, `C128_pole_false`.
* Remark: Functions of package math by their accuracy (hypothesis Accurate, met by cutMath). C128_pole_false shows that the margin near the poles cannot be reduced to machine precision.

### C129 Sampled volumes and radii of shells in machine arithmetic (proved)

Property: For every fitted shell and every sequence of random draws, the volume, the mean radius, the median radius and the range of radii that are computed in double precision are those of the exact shell in the directions drawn (azimuthal angle 2*pi*u, cosine of the polar angle 2v-1): with E the error of a radius (C128), the mean is off by at most E + (n+2)/2^52 times the size of the shell, the volume by at most 13 E times the square of the size plus (n+8)/2^49 times its cube, fewer than half of the exact radii exceed the median by more than E and at least half are not more than E below it, and the limits of the range are within E of the smallest and largest exact radius. Ranges over: for all coefficients and orders, all numbers of samples below 2^50, all draws in [0,1), all implementations of the functions of package math with the given accuracy.

* Model: Volume, MeanRadius, MedianRadius, RadialRange with rounding (Model/SampleRound.lean), on the shells of C128.
* Proof: accumulated relative errors of the sums; 1-Lipschitz order statistics and extrema; the error of a radius from C128.
* Theorems: `Props/SampleRound.lean`: `C129_range`, `C129_median`, `C129_mean`, `C129_volume`.
* Remark: Functions of package math by their accuracy; rand.Float64 by its results. The median is the element of rank n/2, as in C02.

### C13 Filter files round-trip (proved)

Property: io.ReadFilter applied to a file written by io.WriteFilter returns the same snapshots, halo ids and particle id lists, for either byte order. Ranges over: all numbers of halos, all particle lists, both byte orders.

* Model: io/filter_data.go writer and reader, byte level.
* Proof: round trip for both byte orders.
* Theorems: `Props/Filter.lean`: `C13_round_trip`.

### C130 Mass and particles of a shell in machine arithmetic (partial)

Property: In the stats mode a particle is added to the mass of a shell exactly if it is inside, and it is put into the list of shell particles exactly if it is inside (negative shell width) or within the width of the shell, although the displacement and the squared distance are float32 numbers, the shell is evaluated in float64 and the squares of the radial limits are rounded to float32: particles that are farther from the limits than a stated margin are treated correctly.  The mass of a file is the sum of the masses of those particles, up to the rounding of the additions, for every number of threads and every schedule. Ranges over: every shell of every order, every halo position, every particle, all limits, every accuracy of the functions of package math, every number of threads and every schedule.

* Model: Model/MassRound.lean: wrap, the displacement, the squared distance and the squared limits with float32 rounding, Contains and the angles of the shell particles with float64 rounding on top of Model/PennaRound.lean; the parallel sum is the section of Model/Par.lean with rounded addition..
* Proof: relative errors of the displacement, Lipschitz bounds for the polynomial in the unit vector (radius_move), C128 and C116 for the shell, C101_close for the sums..
* Theorems: `Props/MassRound.lean`: `C130_counted`, `C130_centre`, `C130_mass`, `C130_inside_partial`, `C130_width_partial`, `C130_axis_false`, `C130_negative_false`.
* Missing or false: Proved: particles within half a box of the halo and farther from the shell than the margin are counted exactly if inside (C130_counted, C130_centre), the mass of a file for all schedules (C130_mass), the list of particles off the polar axis (C130_inside_partial, C130_width_partial).  False in the code: particles on the polar axis are missing from the list because the cosine exceeds 1 (C130_axis_false); a negative lower limit is squared (C130_negative_false); see also C78 for wrap and large widths.

### C131 Profiles of the prof mode from positions and velocities, in machine arithmetic (proved)

Property: With float32 positions, velocities and masses and the rounding of every operation, each bin of a density, contained density or bound density profile holds the (rounded, in file order) sum of the masses of exactly the particles that satisfy the criterion of the profile (any; inside the shell; slower than the escape velocity of the NFW halo at their distance) and whose distance from the halo is between the edges of the bin, where distances are decided up to two parts in a million, membership of the shell up to the accuracy of the evaluation, and squared velocities up to one part in 4096. No particle makes the mode panic. Ranges over: all halos with concentration at least 1, all shells, all lists of particles that need no periodic shift, all radial ranges and bin counts that the mode accepts, all logarithm and trigonometric functions of the stated accuracy.

* Model: insertPoints of the prof mode from float32 positions and velocities: displacement, shell test, NFW escape velocity, bin index and sums, every operation rounded (Model/BoundRound.lean).
* Proof: a calculus of relative errors in units of 2^-24 for the escape velocity (product, quotient, root, logarithm; the mass function of the NFW profile is at least 0.19), the accuracy of Contains (C128) and the bins of C125.
* Theorems: `Props/BoundRound.lean`: `C131_bound`, `C131_contained`, `C131_profile`.
* Remark: All three criteria and the whole profile. Hypotheses: no particle needs a periodic shift (the shift itself is wrong, C78), concentration at least 1, for the bound profile distance at least a 32nd of the scale radius, particles not within the stated margin of the criterion.

### C132 Potential maps in machine arithmetic (partial)

Property: With float32 positions and masses and the rounding of every operation, each cell of the maps of the potential mode is a number and equals the potential of the particles between RMinMult and RMaxMult radii of the halo at the point of the cell, in units of Frac M / R, up to a stated relative error; the radius that is multiplied by RMaxMult, converted to single precision and divided again moves neither the points nor the limits by more than that. The code gives an infinite value if a particle is at the point of a cell. Ranges over: all halos with positive radius and mass, all map sizes from 2 cells, all RMinMult, RMaxMult, RGridMult, all lists of up to 2^30 particles that are not within 2^-18 of the radial limits nor closer to the point of the cell than the error of the distance allows.

* Model: a cell of the maps of the potential mode: radius, limits, displacement, grid point, distance, sum and unit, every operation rounded (Model/PotRound.lean); the point of a cell is that of Model/Potential.lean.
* Proof: relative errors in units of 2^-24 for radius, limits and grid, an absolute error for the displacement from the point, the triangle inequality for the distance, the accuracy of a sum of non-negative terms; a particle at the point of a cell as counterexample.
* Theorems: `Props/PotRound.lean`: `C132_used`, `C132_potential_partial`, `C132_infinite_false`.
* Missing or false: C132_used, C132_potential_partial: all maps, for particles clear of the limits and of the point of the cell. A particle at the point of a cell makes it infinite (C132_infinite_false). Overflow is not modelled.

### C133 Phase diagrams from positions and velocities in machine arithmetic (partial)

Property: With float32 positions, velocities and masses and the rounding of every operation, no particle makes the phase mode panic, each cell of the phase diagram is the rounded sum of the masses of its particles, a particle in a cell has a distance from the halo between the edges of the radial bin and a velocity (radial or speed, with or without the Hubble flow) between the edges of the velocity bin up to a stated tolerance, and a particle in no cell is outside of the grid or, for radial velocities, at the centre of the halo. The code counts particles with a velocity up to one bin below the lowest velocity in the first bin. Ranges over: all halos, multipliers, bin numbers up to 2^40, profile types, all lists of particles within half a box of the halo.

* Model: the phase mode for one halo and the particles of one file: limits, displacement, relative velocity, radial velocity or speed, bins and sums, every operation rounded (Model/PhaseRound.lean, Model/BinRound.lean).
* Proof: the bins of C125 composed with relative errors of displacement, velocity and limits; Cauchy-Schwarz for the radial velocity; a particle below the grid as counterexample.
* Theorems: `Props/PhaseRound.lean`: `C133_phase_partial`, `C133_low_false`.
* Missing or false: Proved for the code as it is: the first velocity bin reaches one bin below the lowest velocity (C133_low_false shows such a particle). Particles across the periodic boundary are left out: their displacement is wrong in the code (C37_displacement_false).

### C134 Smoothed slopes and splashback radii of lines of sight in machine arithmetic (partial)

Property: With every operation rounded, smoothing a positive profile longer than the window never panics; slopes and logarithms of the smoothed densities are the weighted logarithms of the profile, continued with its end values, up to a tolerance that grows with the window, the logarithms and the error of the kernel weights; the radius reported for a line of sight is that of a point which is, up to these tolerances, a local minimum of the slope below the limit with a density below all further in and as steep as every clear candidate; no radius is reported only if there is no clear candidate; and the profile that is passed in is unchanged afterwards. The code restores the profile only up to rounding. Ranges over: all positive profiles, radii, windows up to 2^40, kernels, limits, and all logarithm and exponential functions with a relative error of 2^-50.

* Model: Smooth, ConvolveAt and the use of SplashbackRadius for a line of sight with every operation rounded (Model/SmoothRound.lean); the kernel weights, log and exp are arguments with stated errors.
* Proof: the loops of C52 with rounded sums, the accuracy of a rounded sum of products, logarithm of a rounded exponential; C43 (any ordered field) for the rational numbers the machine has, translated to the exact slopes; the pigeonhole principle for the profile that is not restored.
* Theorems: `Props/SmoothRound.lean`: `C134_smoothed`, `C134_steepest`, `C134_restored_false`.
* Missing or false: C134_smoothed, C134_steepest: everything but the last sentence, for all kernels given as float64 weights with a stated error (the rounding of the linear system that gives the weights is not modelled). False: the profile is not restored exactly, whatever exponential function is used (C134_restored_false); C134_smoothed bounds the change.

### C135 Smoothing into slices of the caller and in place (partial)

Property: Smooth with the options Vals and Derivs returns the same smoothed values and slopes as without them, whatever the slices held before and after any history of earlier calls, also when a slice is the profile itself (the documentation says that the options allow the smoothing to be done in place). In the code this holds for slices of their own only: in place, a constant profile c becomes exp(c), with the profile as target of the slopes all slopes are positive and no splashback radius is found, and one slice for both results holds the same numbers twice. Ranges over: all profiles, windows, slices and their contents, all histories of calls.

* Model: Smooth with its options for the four ways in which profile, values and slopes can share memory (Model/SmoothPlace.lean).
* Proof: the loops of ConvolveAt for targets with any contents; a constant profile is a fixed point of the convolution in place, and two exponentials follow; the slopes are exponentials; invariance of the stored kernels.
* Theorems: `Props/SmoothPlace.lean`: `C135_own_partial`, `C135_in_place_false`, `C135_slopes_false`, `C135_both_false`, `C135_stored`.
* Missing or false: C135_own_partial: slices of their own (exact also behind the end of the profile), for all stored kernels that can arise (C135_stored). False in place: C135_in_place_false (all constant profiles), C135_slopes_false (all profiles), C135_both_false. Real arithmetic.

### C136 Trilinear interpolation in machine arithmetic (partial)

Property: A trilinear interpolator made from three strictly increasing tables of at least two points and a grid of values panics exactly for points outside of the tables. Inside, the float64 result is the trilinear interpolation of the values at the eight corners of the cell, up to 2^-44 times the largest absolute value of the grid, whichever of the adjacent cells is taken for points on a border; at the points of the grid it is exactly the value of the grid. Ranges over: all tables, all grids of values, all points, every rounding of every operation.

* Model: Model/TriRound: construction and evaluation of the trilinear interpolator on tables with every operation rounded to float64, the third coordinate looked up in the second table as in the code.
* Proof: error analysis of the seven weighted means with the accumulation lemmas of C123; weights of grid points are exactly 0 or 1; a third table that differs is refuted.
* Theorems: `Props/TriRound.lean`: `C136_trilinear_partial`, `C136_knots_partial`, `C136_third_false`.
* Missing or false: C136_trilinear_partial, C136_knots_partial: everything for grids whose third table is the second one. False otherwise (C136_third_false: the code looks z up in the table of y), for all grids that reach beyond the second table. Overflow is not modelled.

### C137 Angular fraction profiles in machine arithmetic (partial)

Property: For a shell between the limits of the profile, the angular fraction profile of prof mode, computed in float64, has one radius and one fraction per bin. The radii are the logarithmic centres of the bins (relative error 2^-36). The first fraction is exactly 1, every fraction is a number between 0 and 1 and no larger than the ones before it, and it is the fraction of the sampled directions in which the shell reaches the lower edge of the bin, correct to the last bit, where the edge may be moved by one part in 2^35. Ranges over: all limits, numbers of bins and sampled radii (up to 2^53 samples) of shells between the limits; logarithm and exponential with any error of a few units in the last place.

* Model: Model/FracRound: bins, counts, reverse sums, radii and fractions of AngularFractionProfile with every float64 operation rounded, for the limits that prof mode passes; the sampled radii are given.
* Proof: the bin lemma of C125 for inexact logarithms, counting by induction over the samples, monotonicity of rounding.
* Theorems: `Props/FracRound.lean`: `C137_fraction_partial`.
* Missing or false: C137_fraction_partial: everything for shells between the limits of the profile. Shells that leave the limits are wrong in the code even in exact arithmetic (C73_beyond_false, C73_below_false).

### C138 Masses and radii in machine arithmetic (partial)

Property: With every float64 operation of the cosmology and of the mass definitions rounded (and math.Pow accurate to 2^-50 relative to the size of its logarithm), the radius computed for a mass (R200m, R200c, R500c, R2500c; from a catalogue column in any of the eight units of length) is that of the sphere whose mean density is the named multiple of the critical or mean density up to a relative error of 2^-39 of the mass; a mass of zero gives the radius zero; the mass computed for a radius is right up to 2^-40; and the mass of the radius of a mass is the mass up to 2^-40; coord mode converts lengths of either sign up to 2^-48, and radii that were computed from masses and put into the units of the catalogue come out in comoving Mpc/h with the same bound. Ranges over: all masses within a factor 2^500 of the mass in 1 Mpc/h (and zero), all radii, all cosmologies with positive h and matter density, 2^-100 <= 1+z <= 2^100 (flat up to rounding for the mean density), all definitions and units, all implementations of math.Pow of the stated accuracy.

* Model: cosmo/param.go, the radius and mass loops and the unit factors with every float64 operation rounded; math.Pow as a function of known accuracy; the exponent range is not modelled (Model/RadiusRound.lean).
* Proof: errors as differences of logarithms: a calculus for products, quotients, sums with exact terms, square roots and powers, composed along the formulas and compared with the real-number theorems of C47.
* Theorems: `Props/RadiusRound.lean`: `C138_radius_partial`, `C138_mass_partial`, `C138_inverse_partial`, `C138_column_partial`, `C138_lengths_partial`, `C138_coord_partial`.
* Missing or false: The exponent range of float64 (overflow, subnormal numbers) is not modelled; math.Pow is assumed to have the stated accuracy.

### C139 R_sp in machine arithmetic (partial)

Property: For every fitted shell, the column R_sp of stats is a positive number whenever the volume is, and it is the radius of the ball with this volume: its logarithm is off by at most a 100000th part of the logarithm of that radius (the exponent in the code is 0.33333) and 2^-41. Together with the sampled volume in machine arithmetic: for radii between 2^-10 and 2^10 Mpc/h, R_sp is within a 5000th part of the radius of the ball whose cubed radius is the mean of the cubed radii of the shell in the sampled directions. Ranges over: all volumes of balls with radii between 2^-160 and 2^160; all coefficients, orders and sampled directions whose volume is not lost in the rounding error; all implementations of math.Pow and of the trigonometric functions of the stated accuracy.

* Model: the volume and the power that gives R_sp with every operation rounded (Model/RspRound.lean), for the shells of C129.
* Proof: logarithmic error calculus of C138 and the volume theorem of C129.
* Theorems: `Props/RspRound.lean`: `C139_rsp_partial`, `C139_columns_partial`.
* Missing or false: The exponent 0.33333 of the code makes R_sp differ from the radius of the ball (C78_rsp_false); the theorems bound the difference. The exponent range of float64 is not modelled.

### C14 Filter file start offsets locate each halo's block (partial)

Property: In a file written by io.WriteFilter the StartByte recorded for halo i is the byte offset at which halo i's particle ids begin, so readers can seek to one halo. Ranges over: all numbers of halos and particle lists, every i.

* Model: the offsets of io/filter_data.go.
* Proof: exact condition; refuted from the second halo on.
* Theorems: `Props/Filter.lean`: `C14_recorded`, `C14_start_correct_iff_partial`, `C14_second_halo_false`.
* Missing or false: False of the code from the second halo on (C14_second_halo_false); exact condition proved.

### C140 Particle masses and sphere densities in machine arithmetic (partial)

Property: With every float64 and float32 operation rounded: the particles of a uniform simulation (Gotetra, LGadget-2) together have the mass of the box at today's mean matter density, up to a relative error of 2^-23; the density with which shell mode inserts the sphere of a particle is the particle's mass (times the cube of the subsampling factor) over the volume of the ball with RKernelMult times the halo radius, in units of the mean matter density of the snapshot, up to 2^-40, although the radius is recovered from the largest radius by a multiplication and a division; and the background density is BackgroundRhoMult times that of a particle of the smallest mass, up to 2^-40. Ranges over: all particle numbers, box widths, masses, halo radii, kernel and limit multiples, subsampling factors (all positive), all flat cosmologies with 2^-100 <= 1+z <= 2^100, all implementations of math.Pow of the stated accuracy.

* Model: calcUniformMass, the kernel radius, the density of a sphere and the background density with every operation rounded (Model/KernelRound.lean).
* Proof: logarithmic error calculus of C138; one float32 rounding at the end of the mass.
* Theorems: `Props/KernelRound.lean`: `C140_sphere_partial`, `C140_background_partial`, `C140_uniform_partial`.
* Missing or false: The exponent range of float64 (overflow, subnormal numbers) is not modelled; flat cosmologies only (see C47_open_false); math.Pow is assumed to have the stated accuracy.

### C141 Gadget-2 particles in machine arithmetic (partial)

Property: With every operation rounded as the code rounds it (float32 positions, float32 unit factors): every float32 position within one box width of the box is accepted, and the position handed out is nonnegative, at most a relative 2^-22 above the reported TotalWidth, and within 2^-21 box widths of a periodic image of the position in the file after the conversion of units. It is not always strictly inside the box: in a box of 100000 kpc/h the last float32 below the edge comes out at exactly 100 = TotalWidth. Velocities are the file's velocities times the square root of the scale factor, and masses the file's masses times the mass unit, up to a relative error of 2^-22. Ranges over: all positive box widths and unit factors, all float32 positions within one box width of the box, all velocities, scale factors and masses (no overflow, no subnormal numbers).

* Model: fix and the box width of io/gadget2.go with every float32 and float64 operation rounded (Model/GadgetRound.lean).
* Proof: C32 in float32 followed by the error of two roundings; the strict bound is refuted by a concrete box.
* Theorems: `Props/GadgetRound.lean`: `C141_position_partial`, `C141_inside_false`, `C141_velocity_partial`, `C141_mass_partial`.
* Missing or false: Overflow and subnormal numbers are not modelled; the strict bound y < TotalWidth is false (C141_inside_false).

### C142 Units of Bolshoi and ARTIO files in machine arithmetic (partial)

Property: With every float32 and float64 operation rounded: a grid coordinate x of a Bolshoi file (counted from 1) comes out as (x-1)*BoxWidth/NGridCells up to a relative error of 2^-22, between 0 and a relative 2^-22 above the box width, and the order of the particles along an axis is kept; the redshift of the header is 1/a-1 (1+z up to a relative 2^-24), not negative for a up to 1, and velocities of Bolshoi and BolshoiP files are those of the file times the scale factor up to 2^-22, although the redshift is formed in float32; the particle mass is 1.35e8 times the volume of the box in units of (250 Mpc/h)^3 up to 2^-23. Positions and species masses of ARTIO filesets are those of the file in Mpc/h and Msun/h (0.7 for a missing Hubble parameter) up to 2^-21 and 2^-22, and particles of the box are handed out between 0 and a relative 2^-20 above the reported TotalWidth, although the header converts in float64 and the particles in float32. Ranges over: all box widths, grid sizes below 2^24, float32 grid coordinates from 1 to n+1, scale factors from 2^-23 to 2, velocities, Hubble parameters (or none), units, positions and masses (no overflow, no subnormal numbers).

* Model: the conversions of units of io/bolshoi.go, io/bolshoiP.go and io/artio.go with every operation rounded (Model/UnitsRound.lean).
* Proof: rational calculus of relative errors (product, quotient, rounding); subtracting 1 from a float32 above 1/2 is exact.
* Theorems: `Props/UnitsRound.lean`: `C142_bolshoi_position_partial`, `C142_bolshoi_order`, `C142_bolshoi_redshift_partial`, `C142_bolshoi_velocity_partial`, `C142_bolshoi_mass_partial`, `C142_artio_position_partial`, `C142_artio_width_partial`, `C142_artio_inside_partial`, `C142_artio_mass_partial`.
* Missing or false: Overflow and subnormal numbers are not modelled.

### C15 Uniform random numbers are in range, never stall and batch equals single (proved)

Property: For every seed the Xorshift generator's Next yields values in [0,1), the retry loop inside it ends after a bounded number of steps, drawing n numbers with NextSequence gives the same values and final state as n calls to Next, and two generators with equal seeds give equal streams. Ranges over: all 2^32 seeds, all stream positions, all batch lengths.

* Model: xorshift and the Uniform wrappers on 32-bit words.
* Proof: the linear step is injective and never 0; ranges over the rationals.
* Theorems: `Props/Rand.lean`: `C15_next`, `C15_nextSeq_eq_draws`, `C15_nextSeq_range`, `C15_uniform_range`, `C15_uniformInt_range`, `C15_uniformAt_eq`, `C15_uniform_eq`.
* Remark: float64 modelled as exact rationals.

### C16 Tausworthe generator is in range and batch equals single (proved)

Property: The Tausworthe generator's Next never indexes outside its state, yields values in [0,1), and NextSequence equals repeated Next. Ranges over: all seeds, positions, batch lengths.

* Model: tausworthe.go.
* Proof: invariants of the buffer indices, batch = single.
* Theorems: `Props/Rand.lean`: `C16_next`, `C16_nextSeq_eq_draws`, `C16_indices`.
* Remark: Golang seeding values arbitrary in the documented range.

### C17 Sobol sequences do not repeat (partial)

Property: Successive points of a Sobol sequence lie in [0,1)^d and in each dimension the first 2^k values (k <= 30), together with 0, are exactly the multiples of 2^-k, so no two of the first 2^30 - 1 points coincide; the sequence reports exhaustion rather than crashing. Ranges over: all dimensions 1..6, all k, all positions.

* Model: sobol.go.
* Proof: triangular direction numbers, Gray code induction.
* Theorems: `Props/Sobol.lean`: `C17_range`, `C17_distinct`, `C17_equidistributed`, `C17_exhausted`, `C17_dim_refused`, `C17_first_points_false`, `C17_reinit_not_fresh`.
* Missing or false: Range, distinctness, equidistribution of aligned blocks (numbered from 2), exhaustion proved. 'First 2^k-1 points with 0 are the multiples of 2^-k' is false of the code (C17_first_points_false).

### C18 Parallel sections wait for every worker (proved)

Property: A LockGroup's Synchronize returns only after each of its workers has called Unlock, whatever order they run in; no worker ever blocks in Unlock, and if every worker calls Unlock once Synchronize does return. Ranges over: all numbers of workers and all interleavings.

* Model: cmd/utils.go LockGroup as a transition system.
* Proof: invariants over all interleavings; termination measure.
* Theorems: `Props/Par.lean`: `C18_waits_for_all`, `C18_unlock_never_blocks`, `C18_no_deadlock`, `C18_no_infinite_run`, `C18_can_finish`, `C18_lock_group`.
* Remark: All interleavings of unlocks and the waiter, any number of workers.

### C19 Work is split across threads exactly once (proved)

Property: For any thread count, the strided loops used to distribute particles and halos process each index (each sub-sampled index) exactly once, so counting-type results do not depend on Threads nor on the interleaving. Ranges over: all thread counts, array lengths, sub-sampling factors, schedules.

* Model: the strided loops and collectors of stats, shell, prof, potential.
* Proof: residue classes partition the indices; fold over any arrival order.
* Theorems: `Props/Par.lean`: `C19_each_index_once`, `C19_no_shared_index`, `C19_result_independent_of_schedule`, `C19_mass`, `C19_ids`.
* Remark: Any worker count; float additions modelled as exact (rational) sums, so order independence is up to float rounding.

### C20 Density profiles do not depend on how particles are distributed over workers (partial)

Property: Splitting a halo's line-of-sight profiles over workers, inserting the particles in any distribution and any order and joining the workers gives the same retrieved profiles as inserting all particles sequentially; splitting itself adds no mass. Ranges over: all numbers of workers, bins, rings, insertion sequences and distributions.

* Model: ProfileRing Split/Join, Halo Split/Join, the reuse of workers.
* Proof: additivity of Insert; histories of whole runs.
* Theorems: `Props/HaloPar.lean`: `C20_halo`, `C20_run`; `Props/Ring.lean`: `C20_distribution_irrelevant`, `C20_join_mismatch`, `C20_split_join_neutral`, `C20_stale_width_false`.
* Missing or false: Rings, whole halos and whole runs with reused workers proved in exact arithmetic when all halos have the same ratio of outer and inner radius (as the shell mode creates them); false without it (C20_stale_width_false).

### C21 A sphere's chord contributes its length to the profile (proved)

Property: ProfileRing.Insert(start, end, rho, i) adds rho times the overlapped fraction of each radial bin to line of sight i and only to it; segments entirely outside the radial range change nothing, the order of insertions is irrelevant and Retrieve returns the sum over insertions. Ranges over: all bins, ranges, sequences of insertions.

* Model: ProfileRing Insert/Retrieve.
* Proof: prefix sums of increments equal overlap lengths.
* Theorems: `Props/Ring.lean`: `C21_profile`, `C21_order_irrelevant`, `C21_outside`.
* Remark: Exact arithmetic; plateau ends may be minus infinity.

### C22 Every halo is in exactly one grid cell (proved)

Property: After Grid.Insert into a new grid of any set of positions in the periodic box or at most one box width outside of it, each inserted index is listed by exactly one cell, cell lengths add up to the number of inserted halos, and reading a cell returns exactly the indices placed in it. Ranges over: all grids, position sets.

* Model: grid.go.
* Proof: linked lists of the cells contain each index once.
* Theorems: `Props/Finder.lean`: `C22_cells`, `C22_far_false`, `C22_far_panic_false`.
* Remark: All ordered fields, cell counts and position lists within one box width of the box; the two _false theorems show that positions further away land in a wrong cell or panic.

### C23 Subhalo search is exact in a periodic box (partial)

Property: SubhaloFinder.FindSubhalos marks j as a subhalo of i exactly when j is later in the mass ordering and its periodic distance to i is within i's radius: the cell-based search misses none and adds none. Ranges over: all halo positions, radii, cell counts, box widths.

* Model: finder.go, split_finder.go.
* Proof: refinement to brute force over periodic distances.
* Theorems: `Props/Finder.lean`: `C23_exact_partial`, `C23_split_partial`, `C23_twice_false`, `C23_panic_false`, `C23_empty_false`.
* Missing or false: Exact for positions in [0,W) and radii with 2(r+r')+cell width <= W; for larger radii the statement is false (C23_twice_false, C23_panic_false) and an empty catalogue panics (C23_empty_false). Exact arithmetic.

### C24 Host and subhalo lists are converse relations (partial)

Property: For all i and j, j is in Subhalos(i) iff i is in Hosts(j); HostCount and SubhaloCount are the lengths of these lists and the lists contain no duplicates. Ranges over: all relations built by the finder.

* Model: the host and subhalo tables of finder.go.
* Proof: list invariants, no assumption on the input.
* Theorems: `Props/Finder.lean`: `C24_lists_partial`, `C24_converse`.
* Missing or false: Converse, order and counts for every run that returns, without any hypothesis on positions and radii; absence of duplicates under the hypotheses of C23 (false for large radii: C23_twice_false).

### C25 ID ranges are inclusive (partial)

Property: The id mode with IDStart and IDEnd (or with a mass range) outputs every halo whose rank lies in the documented inclusive range, each exactly once, in rank order. Ranges over: all catalogs and ranges.

* Model: cmd/id.go ranges and lists.
* Proof: exact output; refuted for the last id.
* Theorems: `Props/IdMode.lean`: `C25_list`, `C25_ids`, `C25_range_partial`, `C25_range_false`, `C25_mass_partial`, `C25_mass_empty_false`, `C25_mass_high_false`.
* Missing or false: IDs lists are exact (C25_list, C25_ids). IDStart/IDEnd and mass ranges omit the last halo: C25_range_partial and C25_mass_partial give the exact output, C25_*_false refute the documented behaviour (last halo dropped, panic on an empty mass range, IDs used when all halos are too heavy).

### C26 The mass-sorted halo memo returns the most massive halos (partial)

Property: memo.ReadSortedRockstarIDs(snap, maxID) returns the ids of the maxID+1 most massive halos in non-increasing mass order, for every maxID less than the number of halos, and reports an error otherwise. Ranges over: all catalogs and maxID.

* Model: memoize.go ReadSortedRockstarIDs.
* Proof: permutation sorted by mass; panic at the end refuted.
* Theorems: `Props/Memo.lean`: `C26_ranking_partial`, `C26_end_false`.
* Missing or false: Exact for every maxID except the number of halos (C26_ranking_partial); there the call panics (C26_end_false).

### C27 Memoised headers equal freshly read headers (partial)

Property: memo.ReadHeaders returns, from the cache, the same headers and file names as reading the snapshot files directly, also after any interruption while the cache was being written. Ranges over: all snapshot contents, all crash points.

* Model: memoize.go ReadHeaders with files as byte lists.
* Proof: every prefix of the file as a crash state.
* Theorems: `Props/Memo.lean`: `C27_cached_partial`, `C27_failed`, `C27_interrupted_false`.
* Missing or false: Missing or complete caches are exact (C27_cached_partial, C27_failed); after an interruption zero headers are returned (C27_interrupted_false).

### C28 A reused memo directory always matches the configuration (partial)

Property: The cache directory is reused only if every global configuration setting that affects its contents is unchanged. Ranges over: all pairs of configurations.

* Model: shellfish.go checkMemoDir/configEqual, cmd/utils.go, nil snapshots.
* Proof: exact acceptance condition; readers depend only on compared settings (partly refuted).
* Theorems: `Props/MemoConfig.lean`: `C28_accept`, `C28_stored`, `C28_headers_partial`, `C28_halos`, `C28_nil_fresh`, `C28_nil_false`, `C28_units_false`.
* Missing or false: C28_accept characterises acceptance exactly; headers are right for gotetra and ARTIO with the same scale factor file (C28_headers_partial), halo caches always (C28_halos); false for nil and Gadget settings (C28_nil_false, C28_units_false).

### C29 ID lookup finds the requested halo (proved)

Property: Looking up an id among a snapshot's ids returns an index at which that id is stored, and reports absence exactly when the id is not present. Ranges over: all id lists and ids.

* Model: IntFinder, ReadRockstar.
* Proof: binary search invariant.
* Theorems: `Props/Memo.lean`: `C29_find`, `C29_values`.
* Remark: IntFinder for all lists; ReadRockstar returns the values of the requested rows for distinct ids.

### C30 Byte order conversion is lossless (partial)

Property: Reading a block in the non-native byte order is the inverse of writing it so: swapping twice is the identity, and a little-endian file and its byte-swapped big-endian twin decode to the same values. Ranges over: all buffers of 32- and 64-bit words and both orders.

* Model: byte swapping of io/io.go and of the readers.
* Proof: involution; round trip for both orders.
* Theorems: `Props/Io.lean`: `C30_swap_twice`, `C30_swap_where`, `C30_round_trip`, `C30_gadget2_twins`, `C30_header_false`.
* Missing or false: blocks of numbers: proved for both orders; fails for the headers of Gadget-2 (ReadHeader) and LGadget-2 files, which are always decoded as little endian

### C31 Particle blocks are decoded in file order (partial)

Property: Reading a Gadget file returns positions, velocities, masses and ids of the requested dark-matter types in file order with entry k of each array describing the same particle. Ranges over: all particle-type counts and requested types.

* Model: whole Gadget-2 and LGadget-2 files as byte strings.
* Proof: parser correctness against a writer (Spec/Gadget).
* Theorems: `Props/Io.lean`: `C31_gadget2_partial`, `C31_total`, `C31_header_count`, `C31_header_count_false`, `C31_no_mass_block_false`, `C31_no_particles_false`, `C31_big_ids_false`, `C31_lgadget2_partial`, `C31_lgadget2_false`.
* Missing or false: proved for well-formed files with particles and a mass block (Gadget-2) and little endian LGadget-2 files; fails without mass block, without particles, for 32-bit ids >= 2^31, big endian LGadget-2, duplicated types in the header count

### C32 Positions are wrapped into the box (partial)

Property: Positions returned by readers lie in [0, TotalWidth) and differ from the stored position by a multiple of the box width. Ranges over: all stored positions within one box width of the box.

* Model: wrapping of positions, corruption check.
* Proof: exact arithmetic, an arithmetic with monotone rounding, and float32 (differences within a factor of two are exact).
* Theorems: `Props/FixCoord32.lean`: `C32_float32_partial`, `C32_float32_false`, `C32_float32_accepted`, `C32_float32_corrupt`; `Props/IoBox.lean`: `C32_wrapped_partial`, `C32_rounded_partial`, `C32_rounding_false`, `C32_far_false`, `C32_corrupt`, `C32_all_partial`.
* Missing or false: Exact arithmetic and float32: proved for positions within one box width (accepted, in [0, box width], an exact periodic image unless negative, then within a rounding). False: a coordinate just below zero is returned as the box width itself (C32_float32_false), and positions one to two box widths outside pass the corruption check and stay outside (C32_far_false, C32_float32_accepted); beyond that they are rejected (C32_float32_corrupt).

### C33 Snapshot bounding boxes contain all their particles (partial)

Property: The Origin/Width computed for a block of particles describes a periodic box which contains every particle of the block, and is never wider than the simulation box. Ranges over: all particle sets, in particular sets straddling the periodic boundary.

* Model: bounding boxes of io/io.go.
* Proof: minimum and maximum folds.
* Theorems: `Props/IoBox.lean`: `C33_contains`, `C33_tight`, `C33_empty_false`.
* Missing or false: proved in exact arithmetic for non-empty blocks; an empty block panics

### C34 Reader open/close discipline (partial)

Property: A particle buffer refuses a second Read before Close, Close on a closed buffer is refused, and after any legal sequence of Read/Close the buffer is open exactly when the last call was Read. Ranges over: all call histories.

* Model: Open/Close state of the readers.
* Proof: state machine over all call sequences.
* Theorems: `Props/IoBox.lean`: `C34_discipline`, `C34_bolshoi_false`.
* Missing or false: proved for gotetra, ARTIO, LGadget-2 and Gadget-2; the Bolshoi buffers have no open state

### C35 Sheet segment extraction keeps the grid layout (proved)

Property: Reading a gotetra sheet segment yields the SegmentWidth^3 sub-cube of the GridWidth^3 stored grid with the same (x,y,z) indexing, and file indices map one to one to cell coordinates. Ranges over: all grid and segment widths.

* Model: segment extraction of io/gotetra.go.
* Proof: index arithmetic.
* Theorems: `Props/Io.lean`: `C35_segment`, `C35_segment_too_wide`, `C35_file_coords`, `C35_file`.
* Remark: segment extraction, file coordinates and whole sheet files

### C36 A halo is matched with every file that can contain its particles (partial)

Property: If a particle file's region contains a point within a halo's radius (periodically), then the halo/file intersection test selects that file for that halo. Ranges over: all regions, halo positions, radii, box widths.

* Model: the box tests that match halos with files.
* Proof: periodic interval arithmetic over the reals.
* Theorems: `Props/Box.lean`: `C36_selected_partial`, `C36_sphere_partial`, `C36_subset`, `C36_large_region_false`, `C36_kernel_false`.
* Missing or false: Proved for regions up to half the box minus the radius; false for larger ones (C36_large_region_false) and when the kernel radius counts (C36_kernel_false).

### C37 Halo-centred coordinates are the nearest periodic images (partial)

Property: Transforming particle positions into a halo's frame moves each coordinate by a multiple of the box width to within half a box width of the halo. Ranges over: all positions in the box.

* Model: Transform and the displacement functions.
* Proof: nearest image among all lattice shifts.
* Theorems: `Props/Box.lean`: `C37_nearest`, `C37_displacement_partial`, `C37_displacement_false`.
* Missing or false: Transform proved for any sequence of halos; the displacement of stats, prof, phase and check is shifted by half a box (C37_displacement_false).

### C38 All lines of sight a sphere crosses receive it (partial)

Property: The range of line-of-sight indices used when inserting a sphere into a ring covers each line of sight whose angle lies in the sphere's angular extent and no line of sight outside it (up to one spoke). Ranges over: all numbers of spokes and angles.

* Model: spoke ranges of los/halo.go.
* Proof: angles over the reals; count of visits.
* Theorems: `Props/HaloCut.lean`: `C38_cover`, `C38_no_extra_false`, `C38_one_spoke_false`.
* Missing or false: Every line of sight in the extent is visited exactly once; the claim that no other is visited is false (C38_no_extra_false, C38_one_spoke_false).

### C39 Angular pixels are in range (partial)

Property: geom.DiskPixel and geom.SpherePixel return indices between 0 and the number of pixels minus one for every direction, so that arrays sized by DiskPixelNum/SpherePixelNum are never indexed out of range. Ranges over: all directions and levels.

* Model: los/geom/pixel.go.
* Proof: real arithmetic with floor; surjectivity.
* Theorems: `Props/Pixel.lean`: `C39_disk_partial`, `C39_disk_false`, `C39_sphere_partial`, `C39_sphere_false`, `C39_particle_partial`, `C39_disk_onto`, `C39_sphere_onto`.
* Missing or false: Indices are in range for every direction except two boundary cases, proved separately as C39_disk_false (level 0 at radius 1) and C39_sphere_false (level 1 on the equator), where the code returns an index that is out of range.

### C40 Plucker coordinates commute with translation (proved)

Property: Translating a Plucker line (tetrahedron) gives the same coordinates as initialising it from the translated points, and the sign of the Plucker product with another equally translated line is unchanged. Ranges over: all lines and translations.

* Model: los/geom/primitives.go.
* Proof: ring identities.
* Theorems: `Props/Plucker.lean`: `C40_ray`, `C40_segment`, `C40_anchored`, `C40_dot`, `C40_tetra`, `C40_distance`.
* Remark: Rays, segments, anchored rays and tetrahedra of lines; the permuted product, its sign, and the intersection distances are unchanged by translation. Real arithmetic.

### C41 Linear solves satisfy the system (partial)

Property: For every non-singular matrix, Matrix.SolveVector(b) returns x with M x = b, Invert returns M^-1, SolveMatrix solves for its argument, Mult is the matrix product, and Determinant is the determinant. Ranges over: all sizes and all non-singular matrices.

* Model: math/mat LU, Solve, Invert, Determinant, products.
* Proof: invariant of the elimination with pivoting; matrix identities.
* Theorems: `Props/Mat.lean`: `C41_lu`, `C41_determinant_partial`, `C41_determinant_false`, `C41_zero_column_false`, `C41_solve_partial`, `C41_solve_false`, `C41_solve_triangular`, `C41_invert_partial`, `C41_invert_false`, `C41_solve_matrix_false`; `Props/MatProd.lean`: `C41_mult_vec`, `C41_vec_mult`, `C41_mult_partial`, `C41_mult_false`, `C41_transpose`.
* Missing or false: LU decomposition, determinant (non-singular matrices), MultVec, VecMult, Transpose: full. Mult: only equal widths or one row (C41_mult_false). SolveVector is right exactly when no rows are exchanged (C41_solve_partial is an equivalence; C41_solve_false, C41_invert_false); SolveMatrix ignores its argument (C41_solve_matrix_false); the determinant of a singular matrix may be wrong (C41_determinant_false). Exact arithmetic in an ordered field.

### C42 Interpolation passes through the table (partial)

Property: Linear and bilinear interpolators, built on increasing tables, return for x in range a value between the neighbouring table values (the tabulated value at a knot), never panic in range, and reject x out of range; splines return the tabulated values at the knots and are continuous with continuous first and second derivative. Ranges over: all tables and abscissae.

* Model: search.go, linear_interpolators.go, spline.go, tridiagonal solver.
* Proof: field identities, search invariant, diagonal dominance.
* Theorems: `Props/Interp.lean`: `C42_linear`, `C42_linear_between`, `C42_uniform_linear`, `C42_decreasing_false`; `Props/InterpGrid.lean`: `C42_bilinear`, `C42_uniform_bilinear`, `C42_trilinear_partial`, `C42_trilinear_false`; `Props/Spline.lean`: `C42_tridiag`, `C42_tridiag_dominant`, `C42_spline`, `C42_spline_knots`, `C42_deriv_end_false`, `C42_two_points_false`, `C42_spline_rejects`; `Props/SplineInt.lean`: `C42_integrate_partial`, `C42_integrate_false`.
* Missing or false: Linear, bilinear (tables and uniform grids), TriDiag and natural cubic splines with derivatives are proved for all monotone tables. False and shown by witness theorems: decreasing tables for the linear interpolators, trilinear interpolation with different y and z tables, two-point splines, Deriv at the ends of decreasing tables, integrals whose lower bound is not a knot. Real arithmetic, no rounding.

### C43 The splashback radius is the steepest point (proved)

Property: analyze.SplashbackRadius reports a radius at which the slope is a local minimum steeper than the threshold, the steepest of those at running density minima, and reports failure when there is none. Ranges over: all profiles.

* Model: splashback_radius.go.
* Proof: argmin over interior points.
* Theorems: `Props/SmoothProf.lean`: `C43_splashback`, `C43_lengths`.
* Remark: all profiles

### C44 Snapshot grouping is a partition (proved)

Property: binBySnap groups halos so that each input row appears in exactly one group, under its own snapshot, in input order, and the recorded indices recover the input rows. Ranges over: all catalogs.

* Model: binBySnap and friends.
* Proof: partition; independence of map order.
* Theorems: `Props/Group.lean`: `C44_groups`, `C44_coeff_groups`, `C44_short_ids`, `C44_partition`, `C44_map_order`.
* Remark: Go maps are lists of entries; the range order over a map is shown not to matter.

### C45 Halo histories follow the merger tree (partial)

Property: tree mode returns for each halo its history within the snapshot range with one line per snapshot in the documented format, with the -1 sentinel separating histories. Ranges over: all trees.

* Model: cmd/tree.go, los/tree/tree.go.
* Proof: chains of the forest as lists.
* Theorems: `Props/Tree.lean`: `C45_history`, `C45_histories`, `C45_lines`, `C45_run_partial`, `C45_sentinel_false`, `C45_missing`, `C45_files`, `C45_repeated_false`.
* Missing or false: Histories are complete, ordered, one line per snapshot, taken from the first file that has the halo; a missing halo is an error. The documented -1 sentinels never appear for SnapMin >= 0 (C45_sentinel_false) and repeated SelectSnaps repeat lines (C45_repeated_false).

### C46 coord output columns match their header (partial)

Property: coord mode writes the requested values in the order named by the header comment. Ranges over: all value lists.

* Model: cmd/coord.go from rows to the text.
* Proof: composition with C09/C11/C69.
* Theorems: `Props/Coord.lean`: `C46_words`, `C46_columns_partial`, `C46_integers_first`, `C46_header`, `C46_values`, `C46_run_partial`, `C46_columns_false`, `C46_r2500c_false`, `C46_units_false`, `C46_redshift_false`.
* Missing or false: Exact contents of every line proved; the order agrees with the header when 'integers first' is an involution, false otherwise (C46_columns_false). Values per row proved for every map order; one cosmology for all snapshots (C46_redshift_false), unit label (C46_units_false) and R2500c panic (C46_r2500c_false).

### C47 Mass/radius conversions are inverse and names round-trip (partial)

Property: Radius.Radius and Radius.Mass are mutually inverse and monotone; RadiusFromString(r.String()) = r and MassString names the mass definition of the same radius. Ranges over: all masses, radii, redshifts, definitions.

* Model: cosmo, cmd/halo/radius.go.
* Proof: real analysis of powers.
* Theorems: `Props/Radius.lean`: `C47_densities`, `C47_value`, `C47_open_false`, `C47_names`, `C47_mass_name_partial`, `C47_mass_name_false`, `C47_radius`, `C47_inverse`, `C47_monotone`, `C47_nested`, `C47_units`, `C47_units_panic`.
* Missing or false: Inverse, monotone, nested, correct densities and units proved over the reals; MassString(R500c) returns "R500c" (C47_mass_name_false); mean density wrong for non-flat cosmologies (C47_open_false).

### C48 Numerical derivatives are exact on low-order polynomials (partial)

Property: calc.Deriv of order 2 (4) is exact for polynomials of degree <= 2 (<= 4) on uniform grids. Ranges over: all polynomials, grids, spacings.

* Model: math/calc/deriv.go.
* Proof: polynomial identities on the grid.
* Theorems: `Props/Deriv.lean`: `C48_order2`, `C48_order4_partial`, `C48_order4_false`, `C48_line_inner`, `C48_nonuniform_false`, `C48_order0_false`, `C48_panics`.
* Missing or false: Order 2 is exact (proved for all polynomials of degree <= 2 on all uniform grids). Order 4 is exact at the ends only; inner points are 4/3 of the derivative (C48_order4_false). Order 0 returns xs; nonuniform grids are wrong at the ends. All panics characterised.

### C49 prof mode returns a profile for every halo (partial)

Property: prof mode, on success, outputs one line per input halo with accumulated contributions of every intersecting file. Ranges over: all catalogs and file sets.

* Model: cmd/prof.go and cmd/phase.go run loops over files.
* Proof: induction over the files; early return refuted.
* Theorems: `Props/ProfCounted.lean`: `C49_prof_particle_false`, `C49_unknown_false`, `C49_known`, `C49_phase_empty`, `C49_prof_empty_false`; `Props/ProfRun.lean`: `C49_phase`, `C49_prof_false`, `C49_prof_partial`, `C49_marker_first_false`, `C49_phase_all_files_partial`, `C49_phase_split_false`.
* Missing or false: prof mode: false of the code (returns nil, nil after the first matched file), proved for every catalog; holds when nothing is matched. phase mode: proved over all files. Catalogs starting with the marker -1 and unknown or empty snapshots crash prof (witnesses). The potential mode is C79.

### C50 Profile binning conserves mass (partial)

Property: insertPoints/insertPhasePoints put each particle within the radial (and velocity) range into exactly one in-range bin and ignore others, so total binned mass equals the mass in range. Ranges over: all particles and bin settings.

* Model: binning of prof and phase.
* Proof: sums over bins; real logarithms.
* Theorems: `Props/ProfBin.lean`: `C50_density`, `C50_one_bin`, `C50_processed`, `C50_volumes`; `Props/ProfCounted.lean`: `C50_bound`, `C50_contained`, `C50_plain`, `C50_phase_velocity`, `C50_phase_range`; `Props/ProfMedian.lean`: `C50_median_partial`, `C50_pixels_partial`, `C50_median_false`, `C50_phase_cells`, `C50_phase_total`, `C50_phase_radial_partial`, `C50_phase_radial_false`, `C50_phase_processed`.
* Missing or false: Exact for density, contained-density, bound-density and total-velocity profiles over the reals. Radial velocity: false just below the range (truncation), proved otherwise. Median profiles: pixel level 1 plane crashes.

### C51 Example configuration files are accepted (partial)

Property: The example configuration printed for each mode is accepted by that mode's own ReadConfig. Ranges over: all modes.

* Model: all ExampleConfig texts verbatim (generated), ReadConfig/validate of every mode.
* Proof: acceptance for every subset of the shown settings, by symbolic evaluation.
* Theorems: `Props/Modes.lean`: `C51_shell`, `C51_example_shell`, `C51_id`, `C51_example_id`, `C51_tree`, `C51_example_tree`, `C51_stats`, `C51_example_stats`, `C51_prof`, `C51_example_prof`, `C51_check`, `C51_example_check`; `Props/ModesMore.lean`: `C51_phase_partial`, `C51_coord_partial`, `C51_header_false`, `C51_ncells_false`, `C51_global`, `C51_example_global`, `C51_nilscale_false`.
* Missing or false: Files with any layout and any subset of the (also commented-out) settings shown by the examples are accepted for id, tree, stats, shell, prof, check and the global configuration (iff its directories exist or can be made). False for coord, phase, potential (wrong header), potential's NCells, and the bracketed NilSnapScaleFactors: _false theorems. strconv.ParseFloat and strings.ToLower are parameters with stated assumptions (GoLib).

### C52 Smoothing leaves constants and respects boundary rules (partial)

Property: Convolving with a normalised kernel maps a constant sequence to itself under Periodic, Reflection and Extension boundaries; the periodic rule indexes modulo the length and the reflection rule mirrors. Ranges over: all kernels, sequences.

* Model: math/interpolate/filter.go.
* Proof: convolution as a finite sum, per boundary rule.
* Theorems: `Props/Convolve.lean`: `C52_convolve`, `C52_convolve_partial`, `C52_interior`, `C52_short_panics`, `C52_constant`, `C52_range`, `C52_periodic_false`, `C52_reflection_false`, `C52_reverse`, `C52_get`, `C52_get_partial`, `C52_get_false`, `C52_tophat`, `C52_gaussian`.
* Missing or false: Extension and ZeroPad exact for all kernels/sequences; Periodic and Reflection exact except at the left end, where the code is wrong (C52_periodic_false, C52_reflection_false, C52_get_false)

### C53 An accepted snapshot format can be enumerated (partial)

Property: When the validation of the global configuration accepts the snapshot format, meanings, block ranges and logging mode, setting up the snapshot file names never crashes the program: it succeeds or reports an unreadable or mis-sized scale factor file. Ranges over: all formats, meanings, block ranges, snapshot ranges and scale factor files.

* Model: validateFormat against ParticleCatalog.
* Proof: case analysis on meanings; refutations.
* Theorems: `Props/Env.lean`: `C53_unchecked_meaning_false`, `C53_missing_block_false`, `C53_logging_unchecked_false`, `C53_validate_false`, `C53_accepted_enumerates_partial`, `C53_numbered_block`.
* Missing or false: False of the code (C53_*_false); proved when all meanings are well-formed.

### C54 Halo catalogs are assigned to snapshots from the end of the directory (proved)

Property: With at least HSnapMax-HSnapMin+1 files in the halo directory, HaloCatalog(s) is, for every snapshot s in the range, the file that is HSnapMax-s places before the last one; with fewer files an error is returned. Ranges over: all directory listings and snapshot ranges.

* Model: text_halos.go.
* Proof: suffix alignment of lists.
* Theorems: `Props/Env.lean`: `C54_halo_files`.

### C55 Rotations between directions are rotations (partial)

Property: EulerMatrixBetween(v1, v2) is, for all non-zero vectors, an orthogonal matrix of determinant one that takes the direction of v1 to the direction of v2; EulerMatrixBetween(v2, v1) is its inverse; rotating keeps scalar products and so distances. AngularDistance is the length of the shorter arc; AngleInRange tells whether an angle lies on the arc from low to high up to full turns. Ranges over: all pairs of non-zero vectors, all angles and arcs.

* Model: los/geom/rotation.go.
* Proof: matrix identities, trigonometry.
* Theorems: `Props/Rotation.lean`: `C55_rotation_between`, `C55_keeps_dot`, `C55_inverse`, `C55_angular_distance`, `C55_angle_in_range_partial`, `C55_angle_in_range_end_false`.
* Missing or false: AngleInRange misses an angle at the end of a full turn (C55_angle_in_range_end_false); all else proved.

### C56 A particle raises exactly the parts of a line of sight it covers (partial)

Property: Inserting a sphere of density rho into a halo raises each radial bin of each line of sight by rho times the fraction of the bin (bins are equal in log r) that lies in the sphere, and changes nothing else. Ranges over: all halos, ring orientations, sphere positions, radii, densities, bin and line counts.

* Model: Halo.Insert and sphereIntersectRing.
* Proof: geometry of chords over the reals.
* Theorems: `Props/Halo.lean`: `C56_insert_partial`; `Props/HaloCut.lean`: `C56_backward_false`; `Props/HaloLines.lean`: `C56_lines_partial`.
* Missing or false: C56_lines_partial: exact for all lines of the first three quarters of each ring when the radius is small against RMin; the code leaves a mirror image on lines of the last quarter (C56_backward_false). Exact real arithmetic.

### C57 The distance cut before insertion loses nothing (partial)

Property: A particle that Halo.Intersect rejects for kernel radius r would not change any profile if it was inserted with kernel radius r. Ranges over: all halos, particles and radii.

* Model: the distance cut of the shell mode.
* Proof: every sphere that reaches a line passes.
* Theorems: `Props/HaloPass.lean`: `C57_cut_partial`, `C57_center_false`.
* Missing or false: Proved except for a particle exactly at the center (C57_center_false).

### C58 An interrupted halo cache is never used silently (proved)

Property: If writing a halo cache file was interrupted at any byte, later calls that need it report an error; they never return ids or values that differ from the catalogue's. Ranges over: all catalogues, all crash points, all requests.

* Model: cache files of cmd/halo/io.go.
* Proof: every prefix of the bytes.
* Theorems: `Props/Memo.lean`: `C58_sorted`, `C58_values`.
* Remark: For every prefix of the cache files, and all catalogues that the configuration describes.

### C59 Exclusion, neighbours and repetition in the id mode (partial)

Property: With ExclusionStrategy = overlap exactly the selected halos inside ExclusionRadiusMult*R200m of a heavier halo are removed; with neighbor each selected halo is followed by the lighter halos in its radius; every printed row appears Mult times in a row. Ranges over: all catalogues, selections, radii and box widths.

* Model: exclusion, neighbours and mult of cmd/id.go.
* Proof: composition with C23.
* Theorems: `Props/IdMode.lean`: `C59_overlap_partial`, `C59_neighbor_partial`, `C59_shells_false`.
* Missing or false: Positions in the box and radii small compared to the box (outside of that the search itself is wrong, C23); exact on every catalogue with distinct ids. C59_shells_false: the documented overlap of two shells is not what is tested.

### C60 Bolshoi and BolshoiP files are decoded in file order (proved)

Property: Reading a Bolshoi or BolshoiP file, in whatever number of blocks and in either byte order, yields position (Mpc/h), velocity (times the scale factor), mass and id of every particle of the file's own cell, in file order, each with its own values, and the header describes that cell. Ranges over: all divisions into blocks, all particles, both byte orders, all previous contents of the buffer.

* Model: io/bolshoi.go, io/bolshoiP.go on bytes.
* Proof: parser correctness against Spec/BolshoiP.
* Theorems: `Props/Bolshoi.lean`: `C60_bolshoi_read`, `C60_bolshoiP_read`, `C60_bolshoi_header`, `C60_header_layout`, `C60_bolshoi_new`; `Props/Io.lean`: `C60_bolshoi_in_order`.
* Remark: Whole Read of Bolshoi and BolshoiP files (the particles of the file's cell, in file order, with units, masses and ids) and ReadHeader, floats as elements of an ordered field (no rounding). Blocks that overrun the announced number of particles are outside of the model.

### C61 The files of a Bolshoi snapshot partition the particles (partial)

Property: Files overlap at their boundaries, and the cut to the cell of the file keeps every particle of the box exactly once over all files. Ranges over: all positions in the box, all cell numbers.

* Model: the cells of the files of a snapshot.
* Proof: floor arithmetic; exactly one cell.
* Theorems: `Props/Bolshoi.lean`: `C61_bolshoiP`; `Props/IoBox.lean`: `C61_exactly_once_partial`, `C61_origin_false`.
* Missing or false: Exact arithmetic; C61_bolshoiP: the reads of all files of a snapshot give every particle of (0, L]^3 exactly once. Missing: rounding; false for coordinate 0 (stored 1), see C61_origin_false.

### C62 Damaged particle files are not read silently (partial)

Property: A particle file that cannot be opened or ends too early gives an error or a panic, never particles that are not in the file. Ranges over: all files and all previous contents of the buffers.

* Model: truncated files for all readers.
* Proof: every prefix of the bytes.
* Theorems: `Props/Io.lean`: `C62_gadget2_partial`, `C62_bolshoi_partial`, `C62_lgadget2_partial`, `C62_lgadget2_false`, `C62_gotetra_missing_false`.
* Missing or false: every truncation of Gadget-2 and Bolshoi files panics; LGadget-2 files truncated in the ids and missing gotetra files are read silently with stale data

### C63 Ray-tetrahedron intersections are on the ray and on the tetrahedron (partial)

Property: When IntersectionDistance reports an intersection, the points on the ray at the two distances lie on faces of the tetrahedron; every ray with a unit direction through a point inside of a tetrahedron that is not flat is reported, with one intersection on each side of the point, the entry first for tetrahedra oriented with Orient(+1). Ranges over: all tetrahedra and rays.

* Model: ray-tetrahedron intersection.
* Proof: Plücker signs; barycentric coordinates.
* Theorems: `Props/Plucker.lean`: `C63_on_tetra_partial`, `C63_complete`, `C63_coplanar_false`, `C63_oriented`.
* Missing or false: Completeness (C63_complete, C63_oriented) is full for rays through the interior. Soundness excludes rays in the plane of a face, where the code divides 0 by 0 (C63_coplanar_false). Real arithmetic.

### C64 Sphere predicates are exact (partial)

Property: VecIntersect, SphereIntersect, SphereContain, TetraContain, TetraIntersect and LineSegmentIntersect answer exactly whether the point is in the sphere, the spheres have a common point, the sphere contains the sphere or tetrahedron, they have a common point, and where the line meets the sphere; BoundingSphere contains the tetrahedron; Volume does not depend on position or vertex order; Orient only reorders the vertices and gives the orientation asked for. Ranges over: all spheres, tetrahedra, points and segments.

* Model: sphere.go, primitives.go predicates.
* Proof: real inequalities.
* Theorems: `Props/Plucker.lean`: `C64_point`, `C64_spheres`, `C64_contain`, `C64_contain_complete`, `C64_bounding`, `C64_tetra_contain`, `C64_tetra_partial`, `C64_tetra_false`, `C64_volume`, `C64_orient`, `C64_segment_partial`, `C64_segment_false`.
* Missing or false: Exact except TetraIntersect, which only tests vertices (C64_tetra_false), and LineSegmentIntersect, whose factor 2 applies to the first term only (C64_segment_false); both partial theorems are proved.

### C65 Cubic grid interpolators have no memory (proved)

Property: The value of BiCubic.Eval and TriCubic.Eval depends only on the grid and on the arguments, not on the evaluations made before (the splines that are kept between calls are never stale), and at grid points it is the grid value. (A panic that is recovered from does leave stale splines behind; this is shown separately.) Ranges over: all grids, all sequences of evaluations.

* Model: cubic_interpolators.go with the kept splines.
* Proof: state invariant over call sequences.
* Theorems: `Props/Cubic.lean`: `C65_bicubic_history`, `C65_bicubic_grid`, `C65_recovered_panic_false`, `C65_tricubic_history`, `C65_tricubic_grid`, `C65_uniform_bicubic`, `C65_uniform_tricubic`.
* Remark: History independence and grid values for all call sequences without panics; C65_recovered_panic_false shows the stale state after a recovered panic.

### C66 Savitzky-Golay kernels reproduce polynomials (partial)

Property: NewSavGolKernel(order, width) gives weights for which the weighted sum of the values of any polynomial of degree <= order on a uniform grid is its value at the centre (the value of the least-squares fit for arbitrary data); NewSavGolDerivKernel gives the requested derivative. Ranges over: all orders, odd widths, spacings, derivative orders, polynomials and data.

* Model: Savitzky-Golay kernels.
* Proof: normal equations, orthogonality.
* Theorems: `Props/SavGol.lean`: `C66_savgol`, `C66_first_derivative`, `C66_derivative_partial`, `C66_least_squares`, `C66_convolve`, `C66_second_derivative_false`, `C66_short_target`.
* Missing or false: smoothing and first derivative kernels for all orders and widths, all derivatives up to order 3; false for the second derivative with order 4 (C66_second_derivative_false)

### C67 Profile smoothing does not depend on earlier calls (partial)

Property: analyze.Smooth gives the smoothed profile and its logarithmic slope (exact for power laws in the interior), leaves its input unchanged, and its result does not depend on the profiles that were smoothed before. Ranges over: all profiles, windows and histories of calls.

* Model: smooth.go with its kernel cache.
* Proof: history of calls.
* Theorems: `Props/SmoothProf.lean`: `C67_power_law`, `C67_history_false`, `C67_short`, `C67_other_window`.
* Missing or false: first use of a window; later calls use the stale kernel (C67_history_false)

### C68 Tables are transposed exactly (proved)

Property: The per-halo tables that the modes turn into output columns are transposed entry by entry; transposing twice gives the table back; only empty tables and tables with short rows crash. Ranges over: all tables.

* Model: transpose functions.
* Proof: lists.
* Theorems: `Props/Group.lean`: `C68_transpose`, `C68_involution`, `C68_panic`.
* Remark: Panics are modelled.

### C69 Halo values are found under their configured names (partial)

Property: A value named in HaloValueNames is read from the table column listed with it; a radius R200m/R200c/R500c/R2500c that is not listed is computed from the mass of the same definition when that mass is listed, such that the mean density inside it is the overdensity of the definition; all other names are unknown. Ranges over: all configurations with distinct value names, all halo tables, cosmologies and units.

* Model: VarColumns.
* Proof: finite maps as lists.
* Theorems: `Props/VarColumns.lean`: `C69_listed`, `C69_generated`, `C69_unknown`, `C69_unknown_false`, `C69_radius_value`.
* Missing or false: Listed values, generated radii and unknown names proved for all configurations with distinct names; GetColumn of an unknown name returns column 0 (C69_unknown_false).

### C70 Mode parameters are validated (partial)

Property: A mode runs only with parameters in their documented ranges: ReadConfig succeeds exactly for files and flags that can be parsed and whose resulting values meet the mode's documented conditions (positive counts, ordered radii, known strategies and types, odd smoothing window, ordered mass limits), whether the values come from a file, flags or the defaults. Ranges over: all configuration files, flag lists and modes.

* Model: validate methods.
* Proof: exact acceptance condition.
* Theorems: `Props/Params.lean`: `C70_shell`, `C70_id`, `C70_stats`, `C70_prof`, `C70_phase`, `C70_potential`, `C70_check`, `C70_unreadable`, `C70_unchecked_false`, `C70_window_false`, `C70_masses_false`, `C70_bins_false`, `C70_nan_false`.
* Missing or false: Exact acceptance conditions for shell, id, stats, prof, phase, potential and check, for every file and flag list, in terms of the meaning of files and flags. False: nothing is checked without file and flags, even smoothing windows, M200mMin > M200mMax, RMinMult > RMaxMult or no bins in prof, NaN.

### C71 The global configuration is validated (partial)

Property: GlobalConfig.ReadConfig succeeds exactly when the settings are complete for the chosen formats: a version that is not later than the source, known types, units and byte order, usable directories for the catalogs and trees that are used, the columns ID, X, Y, Z and M200m, all NilSnap* values for a nil snapshot, and a documented logging mode; settings of formats set to nil are not needed. Ranges over: all global configuration files and states of the directories.

* Model: GlobalConfig.validate.
* Proof: exact acceptance condition.
* Theorems: `Props/Global.lean`: `C71_accepted_iff`, `C71_settings`, `C71_documented_partial`, `C71_halos_unused`, `C71_future_false`, `C71_nil_false`, `C71_tree_false`, `C71_tree_unset_false`, `C71_logging_false`.
* Missing or false: Exact acceptance condition for every file and directory state (C71_accepted_iff); it implies the documented one under two conditions (C71_documented_partial). False: versions 2.x accepted, NilSnapOmegaL unset masks the later checks, TreeDir required with TreeType nil and not required with consistent-trees when HaloType is nil, Logging = debugging refused.

### C72 Statistics of a shell describe the sampled shell (partial)

Property: For every shell and every sequence of random numbers with at least one sample: the volume is between the volumes of the balls with the smallest and largest radius of the shell, and the mean and median radius are between these radii; for a sphere they are exact; enlarging the shell by c multiplies volumes by c^3, areas by c^2 and radii by c; a shell inside of another one has no larger volume; the radial range contains the radius of the shell in every direction; the volume between two shells and the largest distance are those of the two shells; the radius histogram is the density of the radii in its bins and integrates to one; a point is contained exactly when it is nearer to the center than the shell in its direction. Ranges over: all shells (functions of two angles), all sequences of random numbers, all numbers of samples and bins, all ranges.

* Model: los/analyze/shell.go with the random draws as argument.
* Proof: real sums over samples.
* Theorems: `Props/Shell.lean`: `C72_volume`, `C72_sphere`, `C72_monotone`, `C72_scaling`, `C72_range_partial`, `C72_range_false`, `C72_difference_partial`, `C72_difference_false`, `C72_max_difference`, `C72_contains`, `C72_cube`, `C72_area`; `Props/ShellBins.lean`: `C72_median_partial`, `C72_median_between`, `C72_histogram`, `C72_histogram_normed`; `Props/ShellSphere.lean`: `C72_sphere_area`.
* Missing or false: Proved for all shells and draws: bounds, exactness for spheres, monotonicity, scaling, cube volume, containment, histogram density and norm, maximal difference over the samples. False of the code: RadialRange only covers the sampled directions (C72_range_false), DiffVolume is too small by a factor between 3 and 4 (C72_difference_partial, _false), the median for odd numbers of samples is one rank too high.

### C73 Angular fraction profile is the fraction of directions inside the shell (partial)

Property: For every shell, range of radii and number of bins, the value of the angular fraction profile at each radius is the fraction of the sampled lines of sight whose shell radius is at least that radius: it is at most one, never increases with radius, and is a number. Ranges over: all shells, all sequences of random numbers, all ranges and numbers of bins.

* Model: angular fraction profile.
* Proof: counting.
* Theorems: `Props/ShellBins.lean`: `C73_counts`, `C73_fraction_partial`, `C73_beyond_false`, `C73_below_false`.
* Missing or false: Proved exactly what the profile contains (C73_counts) and the property for shells inside of the range (C73_fraction_partial); false of the code when the shell leaves the range (C73_beyond_false, C73_below_false).

### C74 Axes of a shell are those of its moments of inertia (partial)

Property: For every shell the three axes are computed from the inertia tensor of its surface about its center of mass, are sorted from the longest to the shortest, and the direction that is returned is the direction of the longest axis. Ranges over: all shells, all samples, all eigenvalue decompositions (any order of the eigenvalues).

* Model: moments and axes.
* Proof: linear algebra; the eigenvectors are an argument.
* Theorems: `Props/ShellAxes.lean`: `C74_inertia`, `C74_trisort_partial`, `C74_trisort_false`, `C74_lengths_partial`, `C74_direction_partial`, `C74_direction_false`, `C74_extent`.
* Missing or false: Inertia tensor, sorting (up to an exact tie) and lengths proved; the direction is right only when the longest axis is eigenvector 0 and perpendicular to the right one otherwise (C74_direction_false). The eigenvalue decomposition itself is gonum's and an argument.

### C75 Penna-Dines shells: evaluation and least squares fit (partial)

Property: For every order and all coefficients, the shell function is the polynomial of the direction with these coefficients and does not depend on the choice of angles; for every set of points that determines the coefficients, the fitted coefficients are the unique ones with the least squared radial error, and points that lie on a Penna-Dines shell (also when given in the planes of rings) return exactly its coefficients; the order of a shell is recovered from its number of coefficients; a set of points that does not determine the coefficients is reported. Ranges over: all orders, coefficient lists, directions, and lists of points.

* Model: penna.go.
* Proof: normal equations; existence of determining grids for every order.
* Theorems: `Props/Penna.lean`: `C75_polynomial`, `C75_short`, `C75_periodic`, `C75_least_squares`, `C75_recovers`; `Props/PennaGrid.lean`: `C75_determined`; `Props/PennaMore.lean`: `C75_few_points`, `C75_dependent`, `C75_singular_false`, `C75_no_points`, `C75_axis_false`, `C75_order`, `C75_fit_order`, `C75_volume_fit`.
* Missing or false: Evaluation, least squares, exact recovery, orders and existence of determining points for every order are proved (gonum's inverse of a non-singular matrix is a hypothesis). False of the code: singular systems (too few points; three powers of every coordinate) are not reported (C75_few_points, C75_dependent, C75_singular_false), a point on the z axis makes all coefficients NaN (C75_axis_false).

### C76 Filtering of candidate points by the density tree (partial)

Property: For every set of candidate points in polar coordinates the density tree finds the maxima of the radial density estimate in 1, 2, 4, ... angular bins, connects them from level to level, and its curve passes through the connected maxima; filtering keeps exactly the points whose distance from that curve is less than the width, in their order; a ring that cannot be filtered is reported by ok = false. Ranges over: all lists of radii and angles, all numbers of levels, all smoothing widths, all lists of rings.

* Model: kde.go, FilterPoints.
* Proof: real analysis of sums; lists.
* Theorems: `Props/Kde.lean`: `C76_kde`, `C76_bins`, `C76_bins_panic`, `C76_maxes`; `Props/KdeFilter.lean`: `C76_tree`, `C76_anchors`, `C76_never_false`; `Props/KdePoints.lean`: `C76_filter`, `C76_filter_false`, `C76_points`, `C76_sublist`, `C76_ok_false`.
* Missing or false: Density estimate, bins, maxima, connection rule, anchors and the filter are proved for all points. False of the code: points are kept within dr/2, not dr (C76_filter_false); ok is never false and rings without a candidate or without an interior maximum panic (C76_never_false, C76_ok_false, C76_tree).

### C77 Candidate points of the lines of sight (proved)

Property: For every halo and ring the buffer has, after the search, for every line of sight independently of the others whether it has a point of steepest slope, and then its radius, angle, position in the plane and position in the volume, which are the same point; the result does not depend on what the buffer was used for before; rings with a candidate can be filtered. Ranges over: all halos, rings, profiles, windows, slope limits and earlier contents of the buffer.

* Model: ring_buffer.go, calcCoeffs.
* Proof: state invariant of reused buffers.
* Theorems: `Props/RingBuf.lean`: `C77_clear`, `C77_floor`, `C77_splashback`, `C77_volume`, `C77_okCoords`, `C77_usable`, `C77_history`, `C77_coeffs`.
* Remark: Every line of sight separately, the plane and volume positions agree, history of the buffers is irrelevant.

### C78 The stats mode counts, for every row, the particles inside its shell (partial)

Property: For every catalog of halos and shells, every set of snapshot files, every number of threads and every schedule, the M_sp of a row is the total mass of the particles of its snapshot that lie inside the row's shell, whatever the other rows of the catalog are, and the shell particle file lists exactly the ids of the particles within the shell width of the shell (or inside it, when the width is negative); rows of the marker snapshot -1 and runs with SkipMass give 0. R_sp is the radius of the sphere with the volume of the shell. The code satisfies it only when the shell stays inside the catalog radius, the sampled radial range covers the shell, no displacement needs wrapping and the width does not exceed the shell; the failures are proved as _false theorems. Ranges over: all catalogs, snapshots, files, particles, shells, sampled directions, thread counts and schedules.

* Model: stats mode over files and workers.
* Proof: induction over files and all schedules.
* Theorems: `Props/Stats.lean`: `C78_one_file`, `C78_one_file_ids`, `C78_columns`, `C78_test_partial`, `C78_mass_partial`, `C78_ids_partial`, `C78_missed_false`, `C78_first_row_false`, `C78_range_false`, `C78_wrap_false`, `C78_width_false`, `C78_rsp_false`.
* Missing or false: Exact characterisation of the columns for every schedule (C78_columns); correct masses and ids under the stated conditions; witnesses for the unread file, the sampled range, the half-box wrap, the squared lower limit and the exponent of R_sp.

### C79 The potential maps are the potential of the halo's particles at the listed coordinates (partial)

Property: For every catalog, every set of snapshot files, every number of threads and every interleaving of the loads and stores of the workers, each cell of the three maps of a row is the gravitational potential, in units of G M / R, of the particles of the row's snapshot between RMinMult and RMaxMult times the radius of the halo, at the point whose coordinates the R columns give; no update is lost. The code computes the potential at other points: the axes are mirrored and the spacing of R is wrong, for every grid; displacements are not wrapped at the edge of the box; the default RMinMult = RMaxMult = 1 uses no particles except those exactly at the radius. Ranges over: all configurations, catalogs, files, particles, random choices, thread counts and interleavings.

* Model: potential mode.
* Proof: interleavings of loads and stores (Model/Mem).
* Theorems: `Props/Potential.lean`: `C79_insert`, `C79_maps`, `C79_potential_partial`, `C79_coordinates_false`, `C79_mirror_false`, `C79_edge_false`, `C79_default_false`.
* Missing or false: Exact maps for every interleaving (C79_insert, C79_maps) and the potential of all particles in range under the stated conditions; the coordinates of R are wrong for every grid (C79_coordinates_false).

### C80 The shell mode analyses, for every row, the densities of that row's own particles (partial)

Property: For every catalog, every set of snapshot files and every number of threads, each output row of the shell mode is the analysis (coefficients or percentile profile) of a halo whose lines of sight hold exactly the kernel spheres of every SubsampleFactor^3-th particle of the row's snapshot that reaches the shell between RMinMult and RMaxMult radii, at the periodic image nearest to the halo, whatever other rows are in the catalog and in whatever order the files are. The planes of the rings are given by unit vectors, and are determined by the seed. In the code, the lowest density of a profile is scaled with the mean density of the first (smallest) snapshot, so it does depend on the other rows; a row with radius <= 0 or with the snapshot marker -1 stops the whole run. Ranges over: all configurations, catalogs, disks of snapshot files, particles, thread counts and seeds.

* Model: shell mode over snapshots, files, workers.
* Proof: refinement to per-row insertion.
* Theorems: `Props/HaloLines.lean`: `C80_lines_partial`; `Props/ShellRun.lean`: `C80_rows_partial`; `Props/ShellRunMore.lean`: `C80_threads`, `C80_independent_partial`, `C80_norms`, `C80_norms_seed`, `C80_cosmology_false`, `C80_radius_false`, `C80_marker_false`.
* Missing or false: C80_rows_partial and C80_independent_partial: for rows with a positive radius, a snapshot other than -1, halo + kernel at most half a box; the floor density depends on the first snapshot (C80_cosmology_false). Witnesses for the failing rest: C80_radius_false, C80_marker_false.

### C81 The percentile, median and mean profiles of a halo are those of all its lines of sight (partial)

Property: For every halo, number of rings, of lines of sight and of bins, and every percentile from 0 to 100, the profile of the shell mode never panics; it lists the centers of the radial bins in increasing order, each inside of its bin, then for every bin the density at that percentile over all lines of sight of all rings, where no density is below the background density. The median profile has the median, the mean profile the mean. In the table that is printed, entry x of row y is entry x of the profile of row y. In the code the percentiles are counted from the largest density (100 gives the minimum), the median of an odd number of lines is one rank too high, and a blank row breaks the table. Ranges over: all halos, densities, percentiles, numbers of rings, lines of sight and bins, all tables.

* Model: percentile, median and mean profiles.
* Proof: order statistics.
* Theorems: `Props/Profiles.lean`: `C81_percentile`, `C81_ordered`, `C81_half_partial`, `C81_reversed_false`, `C81_antitone`, `C81_median_partial`, `C81_mean`, `C81_transpose`, `C81_ragged_false`, `C81_run`.
* Missing or false: C81_percentile: exact rank for all percentiles; it is the median for 50 and an even number of lines (C81_half_partial, C81_median_partial); C81_reversed_false: other percentiles are counted from the largest; C81_ragged_false: a blank row panics.

### C82 Median profiles of the prof mode, their bootstrap errors and angular fractions (partial)

Property: For every halo, set of particles, pixel level and percentile, a median profile lists the centers of the radial bins and, for every bin, the density at the percentile over all pixels of the sphere, where the density of a pixel is the mass of the particles in it over its volume. The error profile has the standard deviation of that percentile over the lists that were drawn: at most half of the range of the pixel densities, zero for one sample. Each row of the angular fractions belongs to its own shell and radius. In the code percentiles are counted from the largest value, and with Samples = 0 every error is NaN. Ranges over: all halos, particles, pixel levels, percentiles, random draws and shells.

* Model: pixel profiles of prof.
* Proof: order statistics, bootstrap sums.
* Theorems: `Props/ProfPixels.lean`: `C82_profile_partial`, `C82_reversed_false`, `C82_bootstrap`, `C82_bounded`, `C82_one_sample`, `C82_errors`, `C82_samples_false`, `C82_fractions_partial`.
* Missing or false: C82_profile_partial: exact rank over the pixels (pixel boundary of C39 left out); C82_reversed_false; C82_samples_false: NaN for Samples = 0; C82_fractions_partial: shells within the radii of the profile. In floating point the variance may be a tiny negative number (NaN); the model is over the real numbers.

### C83 Options that are not set have their documented defaults (partial)

Property: In every mode, whatever configuration file and flags the run is started with, an option that neither of them sets has the default value that the mode's documentation states. Ranges over: all modes, all configuration files, all flag lists, all documented options.

* Model: defaults of all modes.
* Proof: composition with C05/C07.
* Theorems: `Props/Defaults.lean`: `C83_default_partial`, `C83_radius_false`.
* Missing or false: All documented defaults hold for every file and flag list, except ExclusionRadiusMult of id: documented default 0.8, actual 1 (C83_radius_false).

### C84 The check mode reports exactly the stated values that disagree with the simulation (partial)

Property: The check mode passes if every value stated in its configuration (H0, OmegaM, OmegaL, box width, particle masses, particle count, mass of an example halo) agrees with the simulation to ten percent (the count exactly), and otherwise lists exactly the values that do not. Ranges over: all simulations and all check configurations.

* Model: cmd/check.go.
* Proof: folds over files.
* Theorems: `Props/Check.lean`: `C84_failures_partial`, `C84_passed_partial`, `C84_other_files_false`, `C84_zero_false`, `C84_edge_false`, `C84_far_false`.
* Missing or false: Exact list of failed checks for all simulations in which no particle of the halo's snapshot is wrapped; false at the box edge (C84_edge_false), for particles half a box away (C84_far_false), for masses outside the first file (C84_other_files_false) and for stated zeros (C84_zero_false).

### C85 Failures are passed on along a pipe of commands (partial)

Property: When commands are piped together and one of them fails, that command prints no part of a catalog and every later command of the pipe fails too, ending with status 1; when a command succeeds, the next one runs on exactly the catalog it printed. Ranges over: all pipes of any length, all command lines, all outcomes of the steps.

* Model: main of shellfish.go: steps, stdout, status.
* Proof: induction over pipes.
* Theorems: `Props/Main.lean`: `C85_reported`, `C85_report_partial`, `C85_pipe_partial`, `C85_success`, `C85_feeds`, `C85_panic_false`, `C85_no_mode_false`, `C85_blank_false`, `C85_tree_type_false`, `C85_help_false`, `C85_unknown`, `C85_success_source`, `C85_unreadable`.
* Missing or false: Proved for pipes of any length for error exits; false for panics (later commands end with status 0), for a command without arguments, for global configurations that print an empty line; TreeType nil is not refused; unknown help targets end with status 0.

### C86 Plane slices of a tetrahedron are its cross-sections (partial)

Property: Slicing a tetrahedron with a horizontal plane never crashes; the corners of the slice are exactly the points where the plane crosses the edges, the region they span is exactly the cross-section of the tetrahedron with the plane, and the sides of the slice join neighbouring corners around it. A slice is made whenever the plane passes through the tetrahedron. Asking a slice for the sides that a ray from the origin at an angle passes through returns the one or two sides the ray crosses, the angular range of the slice contains the angle of every one of its points and nothing wider than needed, and its squared radii are the smallest and the largest squared distance of its points from the origin. Ranges over: all tetrahedra, all heights of the plane, all earlier contents of the reused slice, all angles.

* Model: plane slices of intersection.go.
* Proof: convex geometry in the plane.
* Theorems: `Props/Slice.lean`: `C86_no_panic`, `C86_corners`, `C86_section`, `C86_sides`, `C86_ok_partial`, `C86_direction_partial`, `C86_lines_partial`, `C86_angle_range`, `C86_range_tight_partial`, `C86_radii_partial`, `C86_touch_false`, `C86_small_false`, `C86_range_false`, `C86_corner_angle_false`, `C86_radius_false`.
* Missing or false: Corners, cross-section and sides exact for every slice made; slices are made when corners stay 1e-5 apart (C86_ok_partial); ray query and ranges under stated hypotheses; witnesses for touching planes, tiny tetrahedra, rays through corners, equal first angles and minimal radius on a side.

### C87 Lines pass through their points and Solve finds where they meet (partial)

Property: A line made from two different points passes through both; making a line from two points that coincide is refused and changes nothing. Solving two lines returns the point that is on both, and reports failure exactly when they are parallel. A line made from a ray contains the projection of that ray on the plane. Ranges over: all pairs of points, all pairs of lines, all earlier contents of a reused line, all rays.

* Model: lines.go.
* Proof: linear equations with tolerance.
* Theorems: `Props/Lines.lean`: `C87_refused`, `C87_through`, `C87_exact`, `C87_solve`, `C87_solved_partial`, `C87_none_iff`, `C87_vertical_false`, `C87_stale_false`, `C87_ray_partial`, `C87_ray_false`.
* Missing or false: Lines exact up to the 1e-5 tolerance; Solve sound; witnesses for vertical against near-horizontal lines reported parallel, stale slopes of reused vertical lines, and InitFromPlucker off the origin.

### C88 Platonic solids are regular and their unique normals name every plane once (partial)

Property: A Platonic solid is made exactly for 4, 6, 8, 12 and 20 sides and has that many faces. The faces are the faces of a regular convex polyhedron around the origin: equally many vertices per face, equal sides, all vertices on one sphere, every side shared by exactly two faces, every other vertex behind each face, and the normals have length one and are perpendicular to their faces. The unique normals contain exactly one normal for each plane through the origin that is parallel to a face. Ranges over: all solids, all faces and sides, exact real coordinates.

* Model: platonic.go.
* Proof: finite geometry by kernel computation in ℤ[φ]-like coordinates, lifted to the reals.
* Theorems: `Props/Platonic.lean`: `C88_sides`, `C88_faces`, `C88_unique_partial`, `C88_unique_false`, `C88_unique_count`.
* Missing or false: Everything is proved for all five solids except UniqueNormals of the icosahedron, which returns two opposite normals and misses a plane (C88_unique_false).

### C89 Sampled volumes and mean radii are unbiased and converge (proved)

Property: For every bounded measurable shell with nonnegative radii, and independent uniform random numbers: the set of points that Contains accepts has a finite volume; for every number of samples the expected value of Volume is this volume, the expected value of MeanRadius is the mean radius over the sphere, and the expected value of CartesianSampledVolume (for a cube that contains the shell) is the volume too; and as the number of samples grows, the results converge to these values with probability one. Every fitted shell without negative radii is such a shell. Ranges over: all bounded measurable shells, all probability spaces with independent uniform draws, all sample counts, almost all sequences of draws.

* Model: the sampling loops of shell.go with independent uniform draws.
* Proof: expectation and the strong law of large numbers (Mathlib probability).
* Theorems: `Props/ShellVolume.lean`: `C89_volume`, `C89_mean_radius`, `C89_cube`, `C89_penna`.
* Remark: Exact real arithmetic; random numbers are independent uniform draws (the generator itself is not modelled here).

### C90 The shell particle file holds the particles near the shells (partial)

Property: When stats is asked for a shell particle file and ends normally, the file exists and reads back as exactly the snapshots, the halo ids and the particle lists of the catalog; if data was lost on the way to the disk, this is noticed when the file is read back and the run fails. (False as coded: the error of the writer is dropped, so stats ends normally with a damaged or missing file, and a run that does not compute masses silently writes no file. The writer itself reports nil only if the file holds the data, and on a disk that keeps what is written the file always holds it.) Ranges over: all catalogs, all byte orders, all file systems (creation fails, opening fails, or any number of bytes is kept).

* Model: writeShellParticles and its check.
* Proof: byte level round trip; disk that loses bytes.
* Theorems: `Props/ShellFile.lean`: `C90_checked`, `C90_written`, `C90_stats_partial`, `C90_dropped_false`, `C90_skipped_false`, `C90_lost`.
* Missing or false: The writer's own check is sound (C90_checked) and on a disk that keeps what is written the file holds the data (C90_written, C90_stats_partial). The full claim is false as coded: the error of writeShellParticles is dropped (cmd/stats.go:345), and without masses no file is written (C90_dropped_false, C90_skipped_false).

### C91 An ARTIO snapshot is read completely, block by block (partial)

Property: For every ARTIO fileset and every history of calls on the buffer, reading block k returns exactly the N-body particles of the cells of this block, in Mpc/h and Msun/h, and all blocks together return every N-body particle exactly once; the fileset and the block are found in every file name; MinMass is the smallest mass of the N-body species; the header has the number of particles that Read returns, the cosmology and a box that holds all particles; a fileset without N-body particles and a fileset that cannot be read give an error. (False as coded: a buffer made for one fileset returns the particles of this fileset when it is asked for a block of another one; a fileset without N-body species is accepted; ReadHeader drops the error of Read and crashes.) Ranges over: all filesets, file names, blocks, particle species, histories of Read, ReadHeader and Close.

* Model: io/artio.go over an abstract library.
* Proof: history of calls.
* Theorems: `Props/Artio.lean`: `C91_names`, `C91_read_partial`, `C91_exactly_once_partial`, `C91_min_mass`, `C91_header_partial`, `C91_other_fileset_false`, `C91_no_species_false`, `C91_error_dropped_false`.
* Missing or false: Proved for blocks of the fileset the buffer was made for, after every history of calls. The claim for other filesets is false (C91_other_fileset_false: the fileset of the first name is used for every read), as are the error claims (C91_no_species_false, C91_error_dropped_false). go-artio itself is modelled by what its calls deliver.

### C92 What a reader reports about a file agrees with the particles it returns (partial)

Property: ReadHeader's particle number, box and cosmology describe exactly the particles that Read returns; positions are wrapped and units converted, every mass is at least MinMass, and the masses of a uniform simulation add up to the mean matter density times the volume of the box. Ranges over: all files of the formats (LGadget-2, Gadget-2, gotetra, Bolshoi, BolshoiP), all particles, all previous buffer contents.

* Model: ReadHeader/Read/MinMass/TotalParticles of all readers.
* Proof: composition with C31/C60.
* Theorems: `Props/Readers.lean`: `C92_lgadget2`, `C92_lgadget2_total`, `C92_gadget2`, `C92_gotetra`, `C92_bolshoi_min`, `C92_bolshoi_mass`, `C92_bolshoiP_min_false`, `C92_bolshoi_count_false`, `C92_total_false`, `C92_gadget2_min_false`.
* Missing or false: Exact arithmetic (no rounding). LGadget-2, Gadget-2 (little endian), gotetra: whole Read and ReadHeader, totals. Missing/false: Gadget-2 MinMass is 0; BolshoiP MinMass differs from the masses; Bolshoi headers count dropped particles; gotetra TotalParticles is -1.

### C93 Ring normals are independent and uniform on the sphere (proved)

Property: With an ideal uniform generator, the ring normals that `shell` draws (for a number of rings other than 3) are independent, each is uniform on the sphere (the probability of a set of directions is the share of the unit ball in these directions, the same for every orientation), and the rejection loop ends with probability one. Ranges over: every number of rings, every list of measurable sets of directions, every rotation, every probability space with independent uniform draws.

* Model: NormVec rejection sampling.
* Proof: measure theory: pushforward of uniform triples.
* Theorems: `Props/Normals.lean`: `C93_uniform`, `C93_ends`, `C93_isotropic`.
* Remark: The generator is an idealised stream of independent uniform triples (hypothesis Draws); the loop is the same definition normLoopOn that normVecs uses with the Xorshift generator. Vectors are real numbers, not float32.

### C94 The cache directory stays consistent over any history of runs (partial)

Property: Whatever runs use a cache directory, one after another, interrupted at any point or at the same time, the files in it were all written with the same settings, a run that is accepted reuses only files written with its own settings, a refused run changes nothing, and an interrupted run can be repeated. Ranges over: all configuration files, all sequences of runs, all points of interruption, all interleavings of two runs.

* Model: runs of the program on one cache directory: copyFile with crash points, two interleaved processes.
* Proof: invariant over all histories; schedules as witnesses.
* Theorems: `Props/MemoRuns.lean`: `C94_safe`, `C94_reused`, `C94_refused`, `C94_again_partial`, `C94_interrupted_iff`, `C94_stuck_false`, `C94_race_false`, `C94_sequential_partial`.
* Missing or false: Proved over all histories of sequential runs with arbitrary crash points: one set of settings per directory, reuse only with own settings, refusals change nothing. The last clause and the concurrent clause are false of the code: an interruption during the copy of memo.config disables the directory for every later run (C94_stuck_false), and two runs started together with different settings are both accepted (C94_race_false); the exact conditions are C94_interrupted_iff, C94_again_partial, C94_sequential_partial.

### C95 Rounding never moves an accepted value out of its table (partial)

Property: In float64 arithmetic, with its rounding: a position in the box gets a cell of the halo grid; a plateau inserted into the ring of a line of sight changes that line only; a radius or angle accepted by prof, phase and the boundary search gets an existing bin; a value accepted by an interpolator on a uniform grid gets an interval of that grid; and the random number generators return values of their half-open range. Ranges over: all float64 values, box widths, numbers of bins and cells, ranges.

* Model: IEEE 754 rounding to 53 bits on the rationals (exponents unbounded) and the index computations of grid, rings, bins, searches and random numbers with every operation rounded.
* Proof: error analysis with monotone rounding; exact counterexamples.
* Theorems: `Props/Round.lean`: `C95_rounding`, `C95_grid_partial`, `C95_grid_bound`, `C95_grid_false`, `C95_ring_partial`, `C95_ring_false`, `C95_prof`, `C95_phase`, `C95_theta`, `C95_search_partial`, `C95_search_false`, `C95_uniform_range`, `C95_uniform_partial`, `C95_uniformInt_partial`, `C95_uniform_false`.
* Missing or false: False: a 150 cell grid (id mode) panics for positions next to the box edge (C95_grid_false), a plateau starting just below the outer radius lands on the next line or panics (C95_ring_false), an interpolator on a fine grid far from 0 gets an index outside its table (C95_search_false), Uniform and UniformInt can return their upper bound (C95_uniform_false). Proved: power of two grids, at most one cell too far in general, rings for ends clearly away from the outer radius, prof, phase and theta bins without restriction, grids starting at 0, ranges that are not tiny.

### C96 Rows keep their identity and their order along a pipe (proved)

Property: The rows printed by id, tree, coord, shell, stats, prof, phase and potential are the halos that were selected or piped in: the same (ID, snapshot) pairs, in the same order, none lost, added or repeated. A pipe of any number of these tools whose last command ends with status 0 printed either nothing at all or exactly the halos that went in. Ranges over: all catalogs, configurations, results of the numerical parts, and pipes of any length.

* Model: the Run functions of the tools from text to text, the numerical parts arbitrary functions, on the parser/printer of C01-C03 and main of C85.
* Proof: induction over pipes; the parser reads back what the printer wrote.
* Theorems: `Props/Pipe.lean`: `C96_shell`, `C96_stats`, `C96_prof_or`, `C96_prof`, `C96_angular`, `C96_phase`, `C96_potential`; `Props/PipeCoord.lean`: `C96_coord`; `Props/PipeHeader.lean`: `C96_pipe_example`; `Props/PipeMore.lean`: `C96_tree`, `C96_id`, `C96_pipe`.

### C97 The header describes the columns (partial)

Property: The header line printed by shell, stats, prof, phase and potential names every column of the rows below it: the ranges of column numbers it announces are consecutive from 0, cover each row exactly, and hold the quantity named. Ranges over: all catalogs, bin counts, orders and results of the numerical parts.

* Model: the same Run functions with their headers.
* Proof: cell by cell comparison of header ranges and printed rows.
* Theorems: `Props/PipeHeader.lean`: `C97_shell`, `C97_stats`, `C97_prof`, `C97_angular`, `C97_potential`, `C97_phase_partial`, `C97_phase_false`, `C97_phase_example`.
* Missing or false: True of shell, stats, prof, the angular fraction and potential; false of phase, whose header swaps the number of radius and velocity columns whenever RBins and VBins differ (C97_phase_false, for all differing bin counts; C97_phase_partial when they agree).

### C98 stats and prof analyse the shells that shell found (partial)

Property: When stats, or a profile of prof that uses the shells, reads what shell printed, it computes with the ids, snapshots, coordinates and shell coefficients of each halo (up to one printing of the numbers), whatever the Orders; a catalog that does not fit the Order of the reader is refused with a message, and so is an empty catalog. Ranges over: all catalogs, shells, and pairs of Orders.

* Model: shellRun then statsRun on text.
* Proof: parser of printer; witnesses for differing Orders.
* Theorems: `Props/PipeHeader.lean`: `C98_order_false`, `C98_empty_stats_false`, `C98_order_larger`; `Props/PipeMore.lean`: `C98_shell_stats`; `Props/PipeProf.lean`: `C98_shell_prof`, `C98_prof_order_larger`.
* Missing or false: Proved for Order of stats or prof ≤ Order of shell what they compute with, and that a larger Order is refused. False: a smaller Order is accepted silently and denotes another shell (C98_order_false); an empty catalog makes stats panic instead of printing its message (C98_empty_stats_false).

### C99 What is kept from halo to halo does not influence the shells (proved)

Property: The shell mode reuses its line-of-sight buffers, its workers' halos and its smoothing kernels for all halos of a run. Its output is nevertheless that of a program which analyses every halo alone, with fresh buffers and kernels: row k of the output is a function of the particles around halo k (and the mean density of the first snapshot) only, the run fails exactly when the analysis of some halo alone fails, and neither the number of threads nor the order of the catalog changes the shell of a halo. Ranges over: every catalog, every set of particle files, every configuration, every number of threads, every order of the halos.

* Model: the whole shell mode with the state it keeps: ring buffers, kernel cache, worker halos (Model/ShellFull, on Model/ShellRun and Model/Kde).
* Proof: simulation: an invariant on the kept state (buffers sized, the only kernel stored is that of the common bin width) under which the analysis of a halo is that with fresh state, then induction over halos and snapshots; with C80, a formula for every row.
* Theorems: `Props/ShellFull.lean`: `C99_alone`, `C99_rows`, `C99_threads`, `C99_order`.
* Remark: The kernels are cached by window width only (los/analyze/smooth.go), which is harmless here because all halos of a run share log(rMax/rMin)/bins (see C67_history_false for histories where it is not). Arithmetic is real; the matrix inverse is a parameter.

## Findings: what the code does not do

The refuting theorems with their comments (the English part of the comment is the finding).

* `C91_other_fileset_false` — C91 is false for more than one snapshot: a buffer that was made for the fileset "a" reads "a" when it is asked for a block of the fileset "b", without an error: the name's fileset is dropped.
* `C91_no_species_false` — C91: a fileset without N-body particles is not refused: the check counts all species. The smallest mass is infinite and the header of every block crashes.
* `C91_error_dropped_false` — C91: `ReadHeader` drops the error of `Read`: if the particles of a fileset cannot be opened, there is a crash instead of an error.
* `C117_equal_false` — C117 is false as stated: if all pixels hold the same mass 0.1, three samples give the error NaN, whatever is drawn, although all percentiles are equal.
* `C127_outside_false` — **C127**: neither query brings a cell number that is not one of the grid into the grid: for a number that is two boxes away, `Inside` denies what holds of the cell that it names.
* `C36_large_region_false` — C36 for regions that are larger than half the box is false of the code: a halo at the edge of the box does not see a file that covers [40, 100].
* `C36_kernel_false` — C36 with the radius inside which particles count is false of the code: the selection uses the outer radius without the radius of the particles' kernels, so a file can be skipped although a particle in it would have changed a profile.
* `C37_displacement_false` — C37 for the displacements of the other modes is false of the code in full: they are shifted by half a box, so a particle across the boundary does not get the displacement of any of its images.
* `C10_longer_row_panics` — C10 is false as stated: a row longer than the first one crashes the program instead of being refused.
* `C10_carriage_return_panics` — C10 is false for data with other white space: a DOS line ending after a blank crashes the program.
* `C115_short_false` — C115 is false as stated: a file that is cut short, or is still being written, is read without an error: rows are missing, and the last value of the last row is wrong.
* `C115_comment_false` — C115 is false as stated: if the read error happens inside a comment, the rows after it are lost without an error.
* `C115_unused_false` — C115 is false as stated: if the read error happens in the last column and this column is not asked for, the rows after it are lost without an error.
* `C84_other_files_false` — C84 is false of the masses in other files than the first one: "all the valid DM particle masses" are only compared with the first file.
* `C84_zero_false` — C84 is false of stated zeros: a simulation with OmegaL = 0.7 passes a check that states OmegaL = 0.
* `C84_edge_false` — C84 is false of a halo at the edge of the box: the right mass is stated, but the particles on the other side of the edge are not found.
* `C84_far_false` — C84 is false of particles far away: a particle half a box away is counted, and a wrong mass passes.
* `C08_config_false` — C08 is false of the code: a file with one mistyped value for the second declared variable makes `ReadConfig` panic.
* `C52_short_panics` — C52: a sequence that is shorter than the kernel is always a panic.
* `C52_periodic_false` — C52 is false for `Periodic`: a kernel that copies the value before each point gives the third number at the first point, where the last one of four is due.
* `C52_reflection_false` — C52 is false for `Reflection`: the two ends are not treated alike. The reversed sequence smoothed with a symmetric kernel is not the reversed result.
* `C52_get_false` — C52 is false for `Get` with `Periodic` (the point before the first one is the last but one) and with `Reflection` (the point after the last one is a panic, for every sequence).
* `C46_columns_false` — C46 is false: for `Values = X, Y, PID` (1, 2 and 3 for a halo) the header says X, Y, PID, and the line holds 2, 3, 1.
* `C46_r2500c_false` — C46 is false for R2500c computed from M2500c: the header cannot be made and the program stops with "Impossible", although every other step accepts the value.
* `C46_units_false` — C46 is false for the units in the header: radii are converted to comoving Mpc/h with the factor of `HaloRadiusUnits`, and labelled with `HaloPositionUnits`; with positions in comoving kpc/h the label is wrong.
* `C46_redshift_false` — C46 is false for catalogues with several snapshots in proper units: the second halo, at redshift 1, is converted with the redshift 0 of the first.
* `C65_recovered_panic_false` — C65 is false across a panic that is recovered from: after an evaluation at a `y` outside of the table, the next one at the same `y` does not panic but returns the value of the row before.
* `C83_radius_false` — C83 is false of ExclusionRadiusMult of id: "defaults to 0.8 if not set", but in every run that does not set it the value is 1.
* `C48_order4_false` — C48 is false for order 4: already for the line `y = x` on the grid 0, 1, …, 4 the derivative in the middle is 4/3.
* `C48_nonuniform_false` — C48: "the points do not need to be uniformly spaced" is false at the ends, already for the line `y = x`.
* `C48_order0_false` — C48: order 0, which should return the values, returns the positions.
* `C110_oblate_false` — C110 is false: a shell whose axes along eigenvectors 0 and 2 are equal and longer than the third one always makes `Axes` panic, however little they differ.
* `C12_format_without_snapshot_false` — C12 is false when the format does not mention the snapshot: only the first snapshot has names, the others crash the program.
* `C12_nil_false` — C12 is false for SnapshotType 'nil' when SnapMin is not 0: the names are looked up from snapshot 0 on.
* `C53_unchecked_meaning_false` — C53 is false of the code: a configuration is accepted although one of its meanings is unknown (everything after the first numbered block goes unchecked), and setting up the file names then crashes the program.
* `C53_missing_block_false` — C53 is false of the code: "Block" is accepted although no block range is given.
* `C53_logging_unchecked_false` — C53 is false of the code: the Logging variable is not checked after a numbered block.
* `C53_validate_false` — C53 is false of the code: ValidateFormats = true crashes the program.
* `C118_shifted_false` — C118 is false as stated: with an output slice that is the slice of coordinates moved by one, each value is evaluated again (the values at 1, 2, 3 are 11, 12, 13).
* `C118_table_false` — C118 is false as stated: with the table of values as output slice, the interpolator changes while it is used (the value at 2 is 12).
* `C118_ends_false` — C118 is false as stated: if the values of a spline (here 5 everywhere) are overwritten (here with 7) after the spline was made, its values at the ends of the table are the new ones, and all others the old ones.
* `C14_second_halo_false` — C14 is false of the code: the second halo of the example file starts at byte 96, but 72 is recorded.
* `C22_far_false` — C22 is false for positions more than one box away: a point at x = 2W is listed by the cell (0, 1, 0), in which none of its images lies.
* `C22_far_panic_false` — … and from the last row of cells the point leaves the grid.
* `C23_twice_false` — C23 is false for large radii: with a search sphere almost as wide as the box the cells at the seam are read twice and a subhalo is listed twice …
* `C23_panic_false` — … with one that is wider the search leaves the grid …
* `C23_empty_false` — … and without any halo it panics (the running maximum reads the last radius).
* `C108_radii_false` — C108 is false of the caller's radii: after a search with the multiplier 0.8 that the documentation of the id mode gives as the default, a radius of 3.625 is the next larger number.
* `C108_tiny_false` — C108 is false for tiny radii: in a box of width 310 with the grid of the id mode, a halo at the origin whose radius is 2^-60 does not list a halo at the same place, although it passes the test: the only cell that is read is the last one.
* `C32_float32_false` — C32 is false at the upper bound: a coordinate just below zero is returned as the box width itself, which is outside `[0, tw)`.
* `C08_flags_false` — C08 is false of the code for flags: a lone "--" followed by a value panics, as does a bad value.
* `C141_inside_false` — C141 is false for the strict bound: a coordinate inside of a box of 100000 kpc/h is moved onto the box width when it is converted to Mpc/h (0.001 is larger as a float32).
* `C71_future_false` — C71 is false of the version: a configuration file for version 2.0.0 is not reported.
* `C71_nil_false` — C71 is false of the settings for a nil snapshot: if NilSnapOmegaL is not set, then neither it nor NilSnapH100, NilSnapTotalWidth and NilSnapScaleFactors are asked for.
* `C71_tree_false` — C71 is false of the merger trees: TreeType = nil is documented to make the Tree* variables unnecessary, but with a halo catalog the directory is required.
* `C71_tree_unset_false` — C71 is false of the merger trees: without a halo catalog, consistent-trees is accepted although no directory is given.
* `C71_logging_false` — C71 is false of the logging modes: "debugging" is documented, but refused whenever Logging is looked at.
* `C38_no_extra_false` — C38 "and no others, up to one spoke" is false of the code: for the extent from -7π/6 to -2π/3 and eight lines of sight, line 7 (at angle 7π/4, i.e. -π/4) is visited, and so are lines 6 and 7 beyond the end of the extent at 4π/3.
* `C38_one_spoke_false` — C38: with a single line of sight an extent around angle 0 makes it be visited twice, so that a sphere counts twice there.
* `C56_backward_false` — C56 in full is false of the code: a sphere in the quadrant with negative x and y, outside the origin, also raises a line of sight on the opposite side, which does not meet it at all.
* `C57_center_false` — C57 in full is false of the code: a particle exactly at the center of the halo is rejected (los/halo.go:160 asks for a distance larger than 0), although it fills the profiles when it is larger than the inner radius.
* `C25_range_false` — C25 is false: of the b - a + 1 halos of every range inside of the catalogue only b - a are printed (none if IDStart = IDEnd).
* `C25_mass_empty_false` — C25 is false: a mass range with no halo in it panics when some halo is lighter than M200mMin …
* `C25_mass_high_false` — … and when all halos are heavier than M200mMax, the ranks in `IDs` are printed instead, although none of them has a mass in the range.
* `C59_shells_false` — C59 is false for the documentation of `overlap` ("halos which have an R200m shell that overlaps with a larger halo's R200m shell are removed"): the fourth halo is printed, although the spheres of the fourth and of the first, heavier, halo intersect.
* `C42_decreasing_false` — C42 is false for decreasing tables, which the documentation of `NewLinear` allows: `Eval` panics for every argument.
* `C42_trilinear_false` — C42 is false for trilinear interpolation when the tables of `y` and `z` differ, already for uniform grids: the function `z` on the grid with `z = 0, 10` and the `y` grid `0, 1` is not reproduced at `z = 1`, where the result is 10, and at `z = 10` the call panics.
* `C123_knots_false` — C123 does not hold exactly, not even at the points of the table: between the points (0, 0) and (49, 1) the interpolator gives 1 - 2⁻⁵³ at 49.
* `C30_header_false` — C30 fails for the headers: `ReadHeader`, MinMass and TotalParticles of Gadget-2 files, and everything of LGadget-2 files, read the header in little endian order even when the file is big endian.
* `C31_header_count_false` — C31 fails when a type is requested twice: the header counts its particles twice, the arrays hold them once.
* `C31_no_mass_block_false` — C31 fails for Gadget-2 files without a block of masses (Gadget-2 writes none when all types have their mass in the header): the reader panics at the end of the file.
* `C31_no_particles_false` — C31 fails for a file without particles: division by zero.
* `C31_big_ids_false` — C31 fails for 32-bit ids of 2^31 and more (Gadget's are unsigned): they come out negative.
* `C31_lgadget2_false` — C31 fails for big endian LGadget-2 files: whatever is read uses the header decoded in the wrong byte order; one particle is taken for 2^24.
* `C62_lgadget2_false` — C62 fails for LGadget-2 files that end inside of the ids: here the file ends before the id of its only particle, and the particle gets the id (77) that the buffer held before.
* `C62_gotetra_missing_false` — C62 fails for gotetra files: a file that does not exist is read without an error; the positions are those that the buffer held before, whatever they were.
* `C32_rounding_false` — C32 fails at the rounding: a tiny negative coordinate comes out as the box width itself, which is outside of [0, tw).
* `C32_far_false` — C32 fails for what passes the corruption check: positions up to two box widths below the box (and up to three above it) are accepted and stay outside of the box.
* `C33_empty_false` — C33 fails for a block without particles: ReadHeader panics.
* `C61_origin_false` — C61 fails at the lower end of the box: a particle whose stored coordinate is exactly 1 (the lowest value of the format) is kept from no file.
* `C34_bolshoi_false` — C34 fails for the Bolshoi formats: they are never open, and a second Read without a Close is accepted (it overwrites the arrays of the first one).
* `C76_never_false` — C76: no points: `NewKDETree` panics; and it never returns `ok = false`.
* `C76_filter_false` — C76 is false with the distance of the documentation ("within dr of the filtering curve"): a point at the distance `3/4 dr` is dropped.
* `C76_ok_false` — C76 is false for rings without candidates: `FilterPoints` has the result `ok` for points that cannot be filtered, but it is never false; a ring with no valid point panics instead.
* `C87_vertical_false` — C87 is false of a vertical and a horizontal line: they meet in one point, but they are reported as parallel.
* `C87_stale_false` — C87 is false of a line that is used again: whether the lines through the same points are found to meet depends on the line the variable held before.
* `C87_ray_false` — C87 is false of rays that do not start at the origin: the ray from (1, 2) along the x axis becomes the line x = 1, so that the ray's own points are not on it.
* `C119_center_false` — C119: a circle without extent in the center of the ring (a sphere on the axis that ends at the plane of the ring) crashes the program.
* `C119_once_false` — C119: with a single line of sight, a sphere around a point of it is added twice.
* `C112_line_false` — C112 is false, in general: in a new ring, after the insertion of a sphere that contains the center, a line whose rounded impact parameter is larger than the rounded distance of the center has the density of the sphere at all radii of the ring.
* `C112_end_false` — C112 is false: take a sphere of radius 2 around (1, -1, 0) in a ring one of whose lines of sight points to 45 degrees. The line leaves the sphere at the radius √2 (the points at distance t on it are in the sphere if and only if t ≤ √2), but the density of the sphere is added to all bins of the line, up to the outer radius of the ring.
* `C85_panic_false` — C85 is false of panics: a command that panics prints nothing, and every later command then ends with status 0 without output.
* `C85_no_mode_false` — C85 is false of a command without arguments: it fails, and the next command succeeds without output.
* `C85_blank_false` — C85 is false of global configurations that print an empty line (SnapshotType = nil without NilSnapOmegaL): the message of a command that fails is no longer recognised, and the next command runs on the message as if it were its catalog.
* `C85_tree_type_false` — C85 is false of the tree type: "You may not use nil as a TreeType", but the tree mode runs with it.
* `C85_help_false` — C85 is false of help: an unknown help target ends with status 0.
* `C130_axis_false` — C130 is false close to the axis: a particle right above the halo, in the middle between the centre and a sphere with radius 2, is in the mass but never in the list of the particles, whatever width is asked for.
* `C130_negative_false` — C130 is false if the lower limit is negative: a fitted shell may have negative radii, `RadialRange` returns the least of them, and its square is compared. The shell here has the radius -5 in one direction and 2 in a direction in which a particle has the distance 3; it is counted.
* `C41_determinant_false` — C41 is false for singular matrices: the determinant of the matrix of ones is 0, but -1 is returned (no pivot is found in the second column, and the row of the previous pivot is exchanged).
* `C41_zero_column_false` — C41 is false for the matrices `(a 0; c 0)` with a column of zeros: the determinant reported is not 0 but `-(c/a)·10⁻²⁰` (the pivot 0 is replaced by `10⁻²⁰`, after the row with the quotient `c/a` has taken the place of the first pivot).
* `C41_solve_false` — C41 is false of the code: the permutation of two unknowns is not solved.
* `C41_invert_false` — C41 is false for inverses when rows are exchanged: the inverse of an exchange of two rows is the exchange itself.
* `C41_solve_matrix_false` — C41 is false for `Matrix.SolveMatrix`: it does not use its argument and returns the matrix of zeros for every system (or panics).
* `C41_mult_false` — C41 is false for products with more than one row of matrices of different widths: a column times a row is wrong, and a square matrix times a column panics.
* `C26_end_false` — C26 is false for `maxID` equal to the number of halos: instead of an error there is a panic, on every catalogue.
* `C27_interrupted_false` — C27 is false after an interruption: any proper prefix of the cache file that an interrupted run left behind is taken for a complete one, and every header is the zero header — for every snapshot with at least one file.
* `C28_nil_false` — C28 is false: a directory written for a simulation box of width 5 is accepted by a run that is told that the width is 7, and the cache then gives 5.
* `C28_units_false` — C28 is false for the Gadget units too.
* `C94_stuck_false` — C94 is false of interruptions: if the first run is interrupted while it copies the configuration file and what is written so far is no valid configuration file, then no run whatever is accepted with that directory any more, until the user deletes the file.
* `C94_race_false` — C94 is false of runs that start at the same time: for any two configuration files, whatever their settings, there is an order of events in which both runs are accepted in a new directory.
* `C51_header_false` — C51 is false of coord, phase and potential: these modes reject their own example whatever the flags are, because it has another header than the one they ask for.
* `C51_ncells_false` — C51 is false of potential whatever the header is: the number of cells cannot be set under the name of the example.
* `C51_nilscale_false` — C51 is false of the scale factors for a nil snapshot: if their line is used as the example shows it, the file is rejected (a number cannot begin with a bracket).
* `C114_adjacent_false` — C114 is false of formats without a separator: with the format "s%d%d", which the program accepts, block 11 of snapshot 1 and block 1 of snapshot 11 have the same file, so that particles are read twice and others never.
* `C114_scale_false` — C114 is false of formats with the scale factor only: snapshots with the same text in the scale factor file share all their files.
* `C70_unchecked_false` — C70 is false without file and flags: nothing is checked, id runs with snapshot -1 and prof without a profile type.
* `C70_window_false` — C70 is false of the smoothing window of shell: it "must be an odd number", but an even one is accepted.
* `C70_masses_false` — C70 is false of the mass limits of id: a minimum above the maximum is not reported.
* `C70_bins_false` — C70 is false of the radii and the bins of prof: a minimum above the maximum and no bins at all are accepted.
* `C70_nan_false` — C70 is false of "NaN", which `strconv.ParseFloat` accepts and no comparison rejects: shell runs with limits of the lines of sight that are not numbers.
* `C75_singular_false` — The code does not notice this: whatever the points (off the axis) and whatever the failed inversion leaves, coefficients are returned.
* `C75_axis_false` — A point on the z axis makes the fit fail (the coefficients are not numbers), although the shell has a radius there.
* `C128_pole_false` — C128: the test is not accurate to the precision of the numbers. The point (2^-27, 0, 1) is inside the shell with radius 1 + x (x: the component of the unit vector) by more than 2^-28, which is millions of times the spacing of float64 numbers; but its polar angle is taken to be 0, and it is said to be outside. All functions of package math are exact here.
* `C133_low_false` — What is not true of the radial velocities: a particle below the grid, with -250 km/s where the lowest velocity is -200 km/s, is in a cell.
* `C98_order_false` — C98 fails when `stats` is run with a smaller Order than `shell`: it accepts the catalog, and computes with a different shell. (Order 4 and Order 3, a shell x³ with one coefficient; numbers are printed and read without rounding of 0 and 1.)
* `C98_empty_stats_false` — C98 fails of a catalog without halos: `stats` panics (where it means to say "No input IDs.").
* `C97_phase_false` — C97 fails of `phase`, whenever RBins and VBins differ: the header announces VBins columns of radii and RBins columns of velocities, but each line holds RBins radii and then VBins velocities.
* `C39_disk_false` — C39 is false on the disk of level 0: the points of the unit circle have pixel 1, and there is one pixel.
* `C39_sphere_false` — C39 is false on level 1: the direction (phi, theta) = (0, pi/2) has pixel 2, and there are two pixels.
* `C113_nan_false` — C113, NaN: when rounding makes the cosine of the polar angle larger than 1 or less than -1, the particle is counted in the first ring around the north pole, also if it is near the south pole; at the first pixel level the program panics.
* `C113_pole_false` — C113 is false near the poles: a particle straight above or below the halo at a distance of 1 + 2^-13 is counted in the second pixel of the northern hemisphere, although it belongs to the first one of its own hemisphere (the pixel of exact arithmetic: 0 in the south, `DiskPixelNum(lvl-1)` in the north).
* `C113_level_false` — C113 is false at the pixel level 24: a particle on the equator of the halo, just below the half plane of azimuth 0, gets a pixel index that is one too large, and the program panics.
* `C88_unique_false` — C88 is false of the icosahedron: the sixth and the seventh of the ten vectors that `UniqueNormals` returns are normal to the same plane, and the plane parallel to the sixteenth face is missing.
* `C63_coplanar_false` — C63 does not extend to rays in the plane of a face: for the ray along the x axis direction through the bottom face of the corner an intersection is reported, but the three weights of the entry face are 0, so that the distance is 0/0.
* `C64_tetra_false` — C64 does not hold in the other direction: a small sphere around the barycentre of the corner touches no vertex and is not reported to intersect it.
* `C64_segment_false` — C64 is false for segments in other directions: a line along the y axis through the centre of a sphere is reported to miss it.
* `C116_axis_false` — C116 is false for points in float32: particles on the axis may have no polar angle. Such a particle is left out of the list of the particles inside the shell, whatever the shell is, although the same point has a polar angle in float64 (and is counted in the mass inside the shell).
* `C132_infinite_false` — C132: a particle at the point of a cell makes the cell infinite.
* `C79_coordinates_false` — C79, the coordinates: for every grid of at least 2 cells no cell belongs to the coordinate that the column `R` gives for it. The grid points run from `+gridR` to `-gridR`, while `R` starts at `-gridR` with a smaller step and never reaches `gridR`; even if the axis is reversed only the first coordinate agrees.
* `C79_mirror_false` — C79, in full, is false of the code: a particle of mass 1 is at (1, 0, 0) from the center of a halo with radius and mass 1; the first cell of the xy map, whose coordinates according to `R` are (-1, -1), gets the potential -1 of the point (1, 1, 0); the potential at (-1, -1, 0) is -1/√5. (All hypotheses of `C79_potential_partial` are met.)
* `C79_edge_false` — C79 across the edge of the box is false of the code: displacements are not wrapped, so that a particle on the other side of the edge is not used although an image of it is well within the range.
* `C79_default_false` — C79: with the defaults of `RMinMult` and `RMaxMult` (both 1; the example file says 1 and 50) only particles exactly at the catalog radius are used.
* `C49_prof_particle_false` — C49 is false of the prof mode: whenever a file of the snapshot of a halo holds a particle inside of the halo's profile, the mode returns neither lines nor an error.
* `C49_unknown_false` — C49 is false of both modes when the first row has a snapshot outside of the range of the simulation: they crash.
* `C49_prof_empty_false` — C49 is false of the prof mode without input rows: it crashes.
* `C50_median_false` — C50 for the median profiles is false of the code in full: at pixel level 1 a particle in the horizontal plane through the halo crashes the mode.
* `C50_phase_radial_false` — C50 is false of the code for profiles in the radial velocity: with bins between -100 and 100, a particle falling in with velocity 150 is counted in the bin from -100 to 0.
* `C82_reversed_false` — C82 is false of the code for percentiles other than 50: the setting 100 gives the lowest density of all pixels.
* `C82_samples_false` — C82 is false of the code if `Samples` is 0 (the settings of the prof mode accept it): no error is a number.
* `C49_prof_false` — C49 is false of the code for the prof mode, for every catalog and simulation: as soon as one halo is matched with one file of its snapshot, the mode returns neither lines nor an error.
* `C49_marker_first_false` — C49: a catalog whose first row is a marker -1 (as the tree mode writes them) crashes the prof mode and the phase mode if the simulation has no snapshot -1.
* `C49_phase_split_false` — C49 is false of the code for the phase mode without the conditions of `C49_phase_all_files_partial`: the same particle is counted or not, depending on the file it is in (it is half a box away from the halo and, because of C37, counted as near).
* `C81_reversed_false` — C81 is false of the code for other percentiles: the setting 100 gives the smallest density of all lines of sight, and the settings below 50 give densities above the median: the order is reversed.
* `C81_ragged_false` — The rows of the shell mode are not all of the same length in a percentile run with a row that is left out: that row has `RadialBins` numbers, the others twice as many. If it is the first, the densities of all other rows are dropped from the table; if it is not, the mode panics.
* `C47_open_false` — C47: without flatness the mean matter density, and with it R200m and M200m, is off by the factor ΩM + ΩL.
* `C47_mass_name_false` — C47 is false for the mass name of R500c, which is "R500c".
* `C120_taus_false` — C120 is false of the Tausworthe generator: it can return 1.
* `C120_uniform_false` — C120 is false in general: `Uniform(2^53, 2^53 + 2)` can return its upper bound.
* `C120_int_false` — C120 is false of large integers: `UniformInt(2^53, 2^53 + 2)` can return its upper bound.
* `C92_bolshoiP_min_false` — C92 fails for BolshoiP: `MinMass` is computed from the width of the box as if this were the Bolshoi simulation, while the particles have the mass of the header.
* `C92_bolshoi_count_false` — C92 fails for the numbers in the headers of Bolshoi (and BolshoiP) files: they count the particles of neighbouring cells that are in the file too, and that `Read` drops.
* `C92_total_false` — C92 fails for gotetra's `TotalParticles` (and ARTIO's): it is -1, without an error.
* `C92_gadget2_min_false` — C92 fails for Gadget-2: `MinMass` is 0 for every file, whatever the masses. So the shell mode starts from a background of density 0, and its setting BackgroundRhoMult has no effect.
* `C101_masses_false` — C101 is false of the masses of the stats mode: with three threads, two runs on the same three particles have different masses. The large particle may arrive before or after the sum of the two small ones.
* `C101_ids_false` — C101 is false of the shell particles: with two threads, two runs may write the ids of one halo in different orders.
* `C101_threads_false` — C101 is false of different numbers of threads, also in the shell mode: the same three densities, added to one cell of a profile by one thread, and by two threads whose cells are then added (cmd/shell.go:452-465), give different numbers.
* `C20_stale_width_false` — C20 without the condition on the bin width is false of the code: line 64 of `Split` keeps the stale width of a scratch ring with the same shape but another range, and the share of that worker then lands in other bins.
* `C121_negative_false` — C121 is false in the strict sense: a dense and a thin plateau leave a negative density behind, and no density where only the thin one is.
* `C121_threads_false` — C121 is false of exact equality between thread counts: three plateaus on one line give 1 in one thread and 1 + 2^-52 when a worker inserts the last two.
* `C55_angle_in_range_end_false` — C55 without the exception is false of the code: the range from 3π/2 to 2π, ends included, misses the angle 0.
* `C95_grid_false` — C95 is false of the grid of the id mode (150 cells, cmd/id.go:17): in a box of width 100, a halo in the box just below its end (or just below 0) makes `Insert` panic, or it is put into the first cell of the next row.
* `C95_ring_false` — C95 is false of the rings: a plateau that starts just below the outer radius is added to the next line of sight, and on the last line the program panics.
* `C95_search_false` — C95 is false of uniform grids whose spacing is as small as the rounding of the first point: an accepted value gets an index that is not in the table.
* `C95_uniform_false` — C95 is false of `Uniform` for small ranges, and of `UniformInt` for large bounds: the upper bound is returned.
* `C102_drift_false` — C102 is false: the box computed for this block of float32 positions begins at 1/4 - m·2⁻²⁶ and is 1 wide for every `m` up to 2²³: the particle at 5/4 is outside of it by m·2⁻²⁶, up to 1/8 (each of the small steps is lost when it is added to the width).
* `C102_missed_false` — … so that the file is not read for a halo of radius 1/10 whose center is that particle.
* `C103_large_false` — C103 is false: an odd id above 2⁵³ selects no row, of no catalogue, although it is in the catalogue: the catalogue never contains it after it is read.
* `C103_hidden_false` — … and its row is found under another id, where it hides the halo that has it.
* `C104_lost_false` — C104 is false: of the 9 cells of a box of width 250, none contains the position 10922667/65536 = 166.66667…, a float32 number.
* `C104_twice_false` — C104 is false: two of the 7 cells of a box of width 250 contain the position 14043430/65536 = 214.28573…, so that a particle there is counted twice.
* `C66_second_derivative_false` — C66 is false for second derivatives with order 4: rows 2 and 4 of the matrix are exchanged, and the solver confuses them. The kernel of the second derivative with five points gives 0 for the parabola `t²`, whose second derivative is 2 (and 2 for `t⁴`, whose second derivative is 0 at 0).
* `C122_rounding_false` — C122 is false of the code without a margin: a particle that is closer than the radius 1, by 2⁻⁶⁰, is alone in a file that is not read.
* `C122_drift_false` — C122 is false of the code with a small margin, too: in a large file the region loses 1/8 (C102), and a particle at half of the radius 1/8 is in a file that is not read.
* `C106_zero_headers_false` — C106 is false of unrelated commands: a command that looks for the headers of a snapshot while another one is making their cache file goes on with zero headers, for every snapshot with at least one file.
* `C106_no_halos_false` — C106 is false of unrelated commands: when two commands make the cache of a halo catalogue at the same time, one of them can go on with a catalogue without halos, for every catalogue with halos.
* `C72_range_false` — It is not the range of the radii of the shell: other directions have smaller and larger radii.
* `C72_difference_false` — The space between the spheres with the radii 1 and 3: `DiffVolume` is 16π/3·2, the volume is 104π/3.
* `C74_trisort_false` — If the first two are equal and larger than the third, the third is returned as the largest.
* `C74_direction_false` — When the surface is longest along eigenvector 1 or 2, the direction that is returned is perpendicular to the one in which it is longest.
* `C73_beyond_false` — Directions in which the shell is beyond `rMax` are left out although every radius of the profile is inside of the shell there: for a sphere outside of the range nothing is a number.
* `C73_below_false` — Directions in which the shell is far below `rMin` are left out too: the first value is one whatever their number is, although the radius is outside of the shell there.
* `C90_dropped_false` — C90 is false when the file cannot be created: the error is dropped, `stats` ends normally and there is no file.
* `C90_skipped_false` — C90 is false with `SkipMass`: the file is asked for, but `stats` ends normally without writing it.
* `C80_cosmology_false` — Independence of the other rows is false of the code: the lowest density of all halos is computed with the mean density of the first snapshot of the catalog. Adding a row of an earlier snapshot changes it by the factor 8 for a halo at redshift 0.
* `C80_radius_false` — One row without a positive radius (the code calls them normal: "This happens sometimes...") makes the whole run fail, whatever the other rows are.
* `C80_marker_false` — One row of the marker snapshot -1 (which the loop wants to skip) makes the whole run fail: the headers of the smallest snapshot number are read before the loop, and there is no snapshot -1.
* `C110_sphere_false` — C110 is false: the axes that are returned for a sphere of radius `r` are `1.1153 r`, `1.1164 r` and `1.1073 r`, whatever correct eigenvalue routine is used (and, by `C110_history`, whatever was measured before).
* `C110_elongated_false` — C110 is false: a body five times as long as it is thick makes `Axes` panic.
* `C86_touch_false` — C86 is false of a plane that touches the lowest face: the cross-section is the whole face, but no slice is made.
* `C86_small_false` — C86 is false of small tetrahedra: with edges of 1e-6 no slice is made, whatever the plane.
* `C86_range_false` — C86 is false of the width of the range when the first two corners are seen at the same angle: all points of this slice are seen within a quarter turn, but the range is the whole circle.
* `C86_corner_angle_false` — C86 is false of a direction that passes exactly through corners: the ray along the x axis runs through the inside of this slice from corner to corner, but no line is returned for it.
* `C86_radius_false` — C86 is false of the least radius: this slice contains the origin, but the least squared radius is 1.
* `C135_in_place_false` — What is not true: that the smoothing can be done in place. With `Vals(ys)` a constant profile of density `c` comes back as the constant `exp c`, for every `c`, every window and every length.
* `C135_slopes_false` — What is not true either: with `Derivs(ys)` all reported slopes are positive, whatever the profile is, so that no splashback radius is found for a limit that is not positive.
* `C135_both_false` — What is not true either: with one slice for both results the values and the slopes are the same numbers.
* `C67_history_false` — C67 is false for later calls: after a call with the spacing `dx0`, the slope of a power law on a grid with the spacing `dx` is too large by the factor `dx / dx0`, because the stored kernel is used.
* `C134_restored_false` — What is not true: that `Smooth` leaves the profile as it was. Whatever `math.Exp` is, with correctly rounded logarithms some float64 density between 1024 and 2048 comes back changed.
* `C17_first_points_false` — The literal claim "the first 2^k - 1 points together with 0 are the multiples of 2^-k" is false: with k = 2 the third point of the first dimension is not a multiple of 1/4.
* `C109_empty_boxes_false` — C109 is false of the other pairs of coordinates: no point of the whole sequence has its third coordinate in `[1/2, 1)` and its fourth in `[0, 1/8)`, or its fifth in `[1/2, 1)` and its sixth in `[0, 1/8)`, because the recurrence for the direction numbers reads the previous number for every term of the polynomial (sobol.go:65-70, index `j-1` for `j-l`), so that the two polynomials of one degree give the same recurrence.
* `C02_median_false` — C02 is false of `Median` for odd lengths: `Median([1,2,3])` returns 3 (median.go:32 asks for the `len/2`-th largest, 1-indexed).
* `C03_percentile_false` — C03 is false: `Percentile(xs, 1)` is the minimum, not the maximum, for every non-empty slice.
* `C107_nan_false` — C107 is false of the other values when there is a NaN: `Quick` and `Shell` leave two values in descending order on the two sides of a NaN, and the largest value is then not found: `NthLargest(xs, 1)` is the smaller one.
* `C42_deriv_end_false` — C42 is false for `Deriv` at the ends of a decreasing table: it panics at every order.
* `C42_two_points_false` — C42 is false for tables with two points, which `NewSpline` accepts according to its checks: it panics.
* `C42_integrate_false` — C42 is false for integrals whose lower bound is not a point of the table: the spline through (0,0), (1,1), (2,2) is the function `x`, whose integral from 1/2 to 3/4 is 5/32, but `Integrate` returns 1/32, the integral from 0 to 1/4.
* `C78_missed_false` — C78 for shells that reach beyond the catalog radius (splashback shells do) is false of the code: the file with the particle is not read because it touches no sphere of catalog radius, so the mass is 0; with another halo next to the file in the catalog the same row gets the mass 1.
* `C78_first_row_false` — C78 for catalogs whose first row has the marker snapshot -1 is false of the code: there is no such snapshot and the run fails, although the same rows in another order are no problem.
* `C78_range_false` — C78 without the assumption on the sampled range is false of the code: the smallest sampled radius is taken for the smallest radius of the shell, and the largest one for the largest, so that a particle outside of the shell is counted and one inside is not.
* `C78_wrap_false` — C78 across the edge of the box is false of the code: in a box of width 100 a particle whose images are all at least 48 away is counted in a shell of radius 5 (its displacement 52 is reduced by 50), and a particle with an image at distance 2 on the other side of the edge is not.
* `C78_width_false` — C78 for widths larger than the shell is false of the code: the shell is a sphere of radius 1 and the width 3 times the catalog radius 1; a particle exactly on the shell is left out (the lower limit 1 - 3 is squared).
* `C78_rsp_false` — The column `R_sp` is not the radius of the sphere with the same volume (the exponent is 0.33333): for a sphere of radius `r` it is `r ^ 0.99999`, which is `r` only for 0 and 1.
* `C100_stats_false` — C100 is false of the stats mode: `GOMAXPROCS` returns the setting before the call, so the first call of a run starts the documented number of threads only if the runtime was already set to it. With `Threads = 1` on 8 cores, 8 threads work on the first file.
* `C45_sentinel_false` — C45 is false for the sentinels: for a non-negative SnapMin no line of the output is the sentinel, whatever the input; two histories are never separated.
* `C45_repeated_false` — A snapshot that is listed twice in SelectSnaps is printed twice.
* `C136_third_false` — C136 is false when the third table is not the second one: points of the grid outside of the range of the second table panic, and points within both ranges are looked up at the wrong place: with the values `z` themselves at `z` = 0, 4 and the second table 0, 2, the value at `z` = 1 is 2.
* `C69_unknown_false` — C69 is false for names which are not known: `GetColumn` does not report them but returns the first column of the catalogue.
