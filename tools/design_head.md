# Formal model of shellfish in Lean 4 — design

This file is written by `tools/mk_design.py` from `tools/design_head.md` (this part), `properties.jsonl`, `MANIFEST.json` and the notes in `tools/status.json`.

## Layout

* `properties.jsonl` — the properties C01, C02, … in English, with anchors in /repo.
* `lean/Verif/Model/*.lean` — the model of the Go code, function by function. The comment of every definition cites file and lines in /repo; simplifications are stated there and in the head of
  the file.
* `lean/Verif/Spec/*.lean` — specifications that are too long to stand beside the theorems (configuration files, catalogs, Gadget and BolshoiP files).
* `lean/Verif/Lemmas/*.lean` — helper lemmas; nothing in them has to be read to understand a statement.
* `lean/Verif/Props/*.lean` — small specifications (first section of each file) and the property theorems `Cnn_…`, with `example`s that show that a concrete, non-trivial case meets the hypotheses.
* `lean/Verif.lean` imports everything. `MANIFEST.json` (made by `tools/mk_manifest.py`) maps properties to theorems.
* `seeded/LOG.jsonl` — the mutation tests (`tools/mutate.py`): one line per edit of a model definition with the theorems that failed and those that were tightened because of it.

## Modelling conventions

* Go slices are `List`s; in-place mutation returns the new contents. Where aliasing or reuse of buffers matters (C20, C65, C67, C77, C80, C91, …) the reused state is part of the model and the
  theorems quantify over the history of calls.
* Out-of-range indexing, `panic` and error returns are explicit outcomes (`Option`, `Out`, `Outcome`, `Res`). A property that says "never panics" is a statement about these outcomes; where the code
  does panic there is an exact condition or a witness.
* `int` is `Int` or `Nat` without overflow (machine words are 64 bits). `uint32`/`uint64` arithmetic that wraps (random generators, byte order) is `BitVec` or explicit modulo.
* `float64`/`float32` are one of: bit patterns (files, caches: no arithmetic is done on them); elements of an arbitrary linear order (sorting); elements of an arbitrary linearly ordered field, with a
  floor function where the code truncates; or the real numbers, where roots, logarithms or angles occur. So arithmetic is exact: rounding, overflow, NaN and ±Inf are NOT modelled, except where a
  head comment says so (minus infinity in los, NaN in kde; a monotone rounding function in C32; round to nearest, ties to even, with 53 bits (float64) or 24 bits (float32) and unbounded exponent in C95, C102 to C104, C108, C112, C113, C116, C117, C119 to C123, C125, C126 and C128 to C142: in these, every operation of the modelled code is rounded, while overflow and subnormal numbers are not modelled; of `math.Log`, `math.Exp`, `math.Pow`, the trigonometric functions and their inverses only the accuracy stated in the theorem is used; NaN, infinities and signed zeros under comparison in C107; the decimal text of a float64 in C105).
* Loops are structural recursions or recursions with fuel; for the latter the theorems show that the fuel given by the model suffices.
* Goroutines, channels and locks are transition systems, and schedules are arbitrary lists of choices: theorems quantify over all interleavings (C18, C19, C49, C78, C79, C80, C94, C100, C101); so are processes that run at the same time (C106). Shared arrays that are
  written without locks are modelled at the level of single loads and stores (Model/Mem).
* Files are lists of bytes. An interrupted write leaves an arbitrary prefix of the bytes (C27, C58, C62, C90, C94).
* Random numbers are arguments of the model (any list of draws); C89 and C93 additionally take them as independent uniform random variables. The generators themselves are C15–C17.
* Iteration over a Go map is a list of entries in arbitrary order; the theorems hold for every order.
* Bugs are modelled as they are. Where the code does not have the property, the manifest says `partial`, a theorem `…_false` refutes the property with a reachable case, and a `…_partial` or exact
  (`iff`) theorem says what does hold.

## Trusted base

* Lean 4.33.0's kernel. No `native_decide`, no `bv_decide`, no axioms of our own, no unfinished proofs. `decide +kernel` is evaluated by the kernel.
* Axioms: of the property theorems in MANIFEST.json, all but a few depend on exactly `propext`, `Classical.choice`, `Quot.sound` (Mathlib's standard three); the others on a subset of these. The list per
  theorem is in `tools/axioms.txt` (output of `#print axioms`).
* The reading of /repo: that the definitions in `Model/` say what the Go code does. Nothing was executed; the mutation log tests the theorems, not the reading.
* Go's standard library as documented: `strings`, `strconv.Atoi/Itoa`, `encoding/binary`, `sort.Sort` (any sorted permutation), `os.File.Read`, `io.ReadFull`. `strconv.ParseFloat`, `%g` and
  `strings.ToLower` are parameters of the model with the assumptions stated in the theorems (`GoLib`, `FloatFmt`, `Lib`); C105 models the first two from their documentation and shows that the
  assumptions of C09 hold of them.
* Third-party packages that are not in /repo: `github.com/gonum/matrix` (product is Mathlib's, `Inverse` and `EigenSym` results are arguments constrained by hypotheses), `go-artio` (a fileset is what its calls
  deliver), `consistent_trees` (a tree file is what its functions return). `unsafe.Sizeof` values are as on amd64.

## What is modelled

Every Go file of the repository except the ones below is modelled; the citation comments give the lines. By package:

| package | model files |
|---|---|
| main (shellfish.go) | Main, Config, MemoConfig, MemoRuns, Pipe, Share |
| parse, version | Config, Text, Version |
| cmd: modes | IdMode, Tree, Coord, Shell, ShellRun, ShellFile, Stats, Prof, Profiles, Potential, Check, Group, Box, Modes, Examples, Par, Mem, ShellFull, Threads |
| cmd/catalog, cmd/env, cmd/halo, cmd/memo | Catalog, Env, Finder, FinderRound, Radius, Memo, MemoConfig, FloatText |
| io | Bytes, Io, Readers, Bolshoi, Artio, Filter, Round32 |
| los, los/geom, los/analyze, los/tree | Halo, Ring, Box, Pixel, Plucker, Slice, Platonic, Rotation, Shell, Penna, Kde, Smooth, Tree |
| math/sort, rand, mat, interpolate, calc; cosmo | Sort, Rand, Sobol, Mat, Interp, Cubic, Smooth, Deriv, Radius, Round |

Not modelled:

* logging (`logging`, `MemString`), profiling, the texts of messages and of the help (except the example configurations), standard error.
* scripts/ and los/analyze/ellipse_grid (stand-alone development scripts; scripts/filter_positions.go does not compile against the current `Read`), `KDETree.PlotLevel` and other plotting, test files.
* the `Ref` methods of math/interpolate (all of them panic "NYI") and the one-line wrappers (`EvalAll`, `New…Interpolator`).
* the Go generator behind `rand.Golang`, seeds from the clock.
* memory use, running time, and floating point rounding (except in the properties listed above).

