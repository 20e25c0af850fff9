{
"C01": {
"status": "proved",
"note": "Quick and Shell sort every input; sorted permutation; agree."
},
"C02": {
"status": "partial",
"note": "NthLargest proved in full. The Median claim is false of the code (C02_median_false): proved for even lengths, exact rank given for odd lengths."
},
"C03": {
"status": "partial",
"note": "The ascending-percentile reading is false of the code (C03_percentile_false): rank formula proved for all p and lists, order reversed."
},
"C04": {
"status": "proved",
"note": ""
},
"C15": {
"status": "proved",
"note": "float64 modelled as exact rationals."
},
"C16": {
"status": "proved",
"note": "Golang seeding values arbitrary in the documented range."
},
"C17": {
"status": "partial",
"note": "Range, distinctness, equidistribution of aligned blocks (numbered from 2), exhaustion proved. 'First 2^k-1 points with 0 are the multiples of 2^-k' is false of the code (C17_first_points_false)."
},
"C05": {
"status": "proved",
"note": "strings.ToLower and strconv.ParseFloat are parameters; int range and list syntax modelled."
},
"C06": {
"status": "proved",
"note": "Blank lines, comments, blanks (not tabs: the code trims only blanks), letter case, order."
},
"C07": {
"status": "proved",
"note": ""
},
"C08": {
"status": "partial",
"note": "False of the code (C08_config_false, C08_flags_false); exact panic conditions proved for files and flags."
},
"C09": {
"status": "proved",
"note": "Integer and float columns, any order, any comment lines before; %.6g/ParseFloat are parameters (rd)."
},
"C10": {
"status": "partial",
"note": "Exact result for every plain text; crash characterised. The claim that long rows are rejected is false of the code (C10_longer_row_panics)."
},
"C11": {
"status": "proved",
"note": ""
},
"C12": {
"status": "partial",
"note": "Proved for formats that mention the snapshot (number or scale factor) and for nil snapshots starting at 0; false otherwise (C12_format_without_snapshot_false, C12_nil_false)."
},
"C13": {
"status": "proved",
"note": ""
},
"C14": {
"status": "partial",
"note": "False of the code from the second halo on (C14_second_halo_false); exact condition proved."
},
"C53": {
"status": "partial",
"note": "False of the code (C53_*_false); proved when all meanings are well-formed."
},
"C54": {
"status": "proved",
"note": ""
},
"C18": {
"status": "proved",
"note": "All interleavings of unlocks and the waiter, any number of workers."
},
"C19": {
"status": "proved",
"note": "Any worker count; float additions modelled as exact (rational) sums, so order independence is up to float rounding."
},
"C20": {
"status": "partial",
"note": "Rings, whole halos and whole runs with reused workers proved in exact arithmetic when all halos have the same ratio of outer and inner radius (as the shell mode creates them); false without it (C20_stale_width_false)."
},
"C21": {
"status": "proved",
"note": "Exact arithmetic; plateau ends may be minus infinity."
},
"C38": {
"status": "partial",
"note": "Every line of sight in the extent is visited exactly once; the claim that no other is visited is false (C38_no_extra_false, C38_one_spoke_false)."
},
"C55": {
"status": "partial",
"note": "AngleInRange misses an angle at the end of a full turn (C55_angle_in_range_end_false); all else proved."
},
"C56": {
"status": "partial",
"note": "C56_lines_partial: exact for all lines of the first three quarters of each ring when the radius is small against RMin; the code leaves a mirror image on lines of the last quarter (C56_backward_false). Exact real arithmetic."
},
"C36": {
"status": "partial",
"note": "Proved for regions up to half the box minus the radius; false for larger ones (C36_large_region_false) and when the kernel radius counts (C36_kernel_false)."
},
"C37": {
"status": "partial",
"note": "Transform proved for any sequence of halos; the displacement of stats, prof, phase and check is shifted by half a box (C37_displacement_false)."
},
"C57": {
"status": "partial",
"note": "Proved except for a particle exactly at the center (C57_center_false)."
},
"C22": {
"status": "proved",
"note": "All ordered fields, cell counts and position lists within one box width of the box; the two _false theorems show that positions further away land in a wrong cell or panic."
},
"C23": {
"status": "partial",
"note": "Exact for positions in [0,W) and radii with 2(r+r')+cell width <= W; for larger radii the statement is false (C23_twice_false, C23_panic_false) and an empty catalogue panics (C23_empty_false). Exact arithmetic."
},
"C24": {
"status": "partial",
"note": "Converse, order and counts for every run that returns, without any hypothesis on positions and radii; absence of duplicates under the hypotheses of C23 (false for large radii: C23_twice_false)."
},
"C25": {
"status": "partial",
"note": "IDs lists are exact (C25_list, C25_ids). IDStart/IDEnd and mass ranges omit the last halo: C25_range_partial and C25_mass_partial give the exact output, C25_*_false refute the documented behaviour (last halo dropped, panic on an empty mass range, IDs used when all halos are too heavy)."
},
"C26": {
"status": "partial",
"note": "Exact for every maxID except the number of halos (C26_ranking_partial); there the call panics (C26_end_false)."
},
"C27": {
"status": "partial",
"note": "Missing or complete caches are exact (C27_cached_partial, C27_failed); after an interruption zero headers are returned (C27_interrupted_false)."
},
"C28": {
"status": "partial",
"note": "C28_accept characterises acceptance exactly; headers are right for gotetra and ARTIO with the same scale factor file (C28_headers_partial), halo caches always (C28_halos); false for nil and Gadget settings (C28_nil_false, C28_units_false)."
},
"C29": {
"status": "proved",
"note": "IntFinder for all lists; ReadRockstar returns the values of the requested rows for distinct ids."
},
"C58": {
"status": "proved",
"note": "For every prefix of the cache files, and all catalogues that the configuration describes."
},
"C59": {
"status": "partial",
"note": "Positions in the box and radii small compared to the box (outside of that the search itself is wrong, C23); exact on every catalogue with distinct ids. C59_shells_false: the documented overlap of two shells is not what is tested."
},
"C30": {
"status": "partial",
"note": "blocks of numbers: proved for both orders; fails for the headers of Gadget-2 (ReadHeader) and LGadget-2 files, which are always decoded as little endian"
},
"C31": {
"status": "partial",
"note": "proved for well-formed files with particles and a mass block (Gadget-2) and little endian LGadget-2 files; fails without mass block, without particles, for 32-bit ids >= 2^31, big endian LGadget-2, duplicated types in the header count"
},
"C32": {
"status": "partial",
"note": "Exact arithmetic and float32: proved for positions within one box width (accepted, in [0, box width], an exact periodic image unless negative, then within a rounding). False: a coordinate just below zero is returned as the box width itself (C32_float32_false), and positions one to two box widths outside pass the corruption check and stay outside (C32_far_false, C32_float32_accepted); beyond that they are rejected (C32_float32_corrupt)."
},
"C33": {
"status": "partial",
"note": "proved in exact arithmetic for non-empty blocks; an empty block panics"
},
"C34": {
"status": "partial",
"note": "proved for gotetra, ARTIO, LGadget-2 and Gadget-2; the Bolshoi buffers have no open state"
},
"C35": {
"status": "proved",
"note": "segment extraction, file coordinates and whole sheet files"
},
"C60": {
"status": "proved",
"note": "Whole Read of Bolshoi and BolshoiP files (the particles of the file's cell, in file order, with units, masses and ids) and ReadHeader, floats as elements of an ordered field (no rounding). Blocks that overrun the announced number of particles are outside of the model."
},
"C61": {
"status": "partial",
"note": "Exact arithmetic; C61_bolshoiP: the reads of all files of a snapshot give every particle of (0, L]^3 exactly once. Missing: rounding; false for coordinate 0 (stored 1), see C61_origin_false."
},
"C62": {
"status": "partial",
"note": "every truncation of Gadget-2 and Bolshoi files panics; LGadget-2 files truncated in the ids and missing gotetra files are read silently with stale data"
},
"C39": {
"status": "partial",
"note": "Indices are in range for every direction except two boundary cases, proved separately as C39_disk_false (level 0 at radius 1) and C39_sphere_false (level 1 on the equator), where the code returns an index that is out of range."
},
"C40": {
"status": "proved",
"note": "Rays, segments, anchored rays and tetrahedra of lines; the permuted product, its sign, and the intersection distances are unchanged by translation. Real arithmetic."
},
"C63": {
"status": "partial",
"note": "Completeness (C63_complete, C63_oriented) is full for rays through the interior. Soundness excludes rays in the plane of a face, where the code divides 0 by 0 (C63_coplanar_false). Real arithmetic."
},
"C64": {
"status": "partial",
"note": "Exact except TetraIntersect, which only tests vertices (C64_tetra_false), and LineSegmentIntersect, whose factor 2 applies to the first term only (C64_segment_false); both partial theorems are proved."
},
"C41": {
"status": "partial",
"note": "LU decomposition, determinant (non-singular matrices), MultVec, VecMult, Transpose: full. Mult: only equal widths or one row (C41_mult_false). SolveVector is right exactly when no rows are exchanged (C41_solve_partial is an equivalence; C41_solve_false, C41_invert_false); SolveMatrix ignores its argument (C41_solve_matrix_false); the determinant of a singular matrix may be wrong (C41_determinant_false). Exact arithmetic in an ordered field."
},
"C42": {
"status": "partial",
"note": "Linear, bilinear (tables and uniform grids), TriDiag and natural cubic splines with derivatives are proved for all monotone tables. False and shown by witness theorems: decreasing tables for the linear interpolators, trilinear interpolation with different y and z tables, two-point splines, Deriv at the ends of decreasing tables, integrals whose lower bound is not a knot. Real arithmetic, no rounding."
},
"C65": {
"status": "proved",
"note": "History independence and grid values for all call sequences without panics; C65_recovered_panic_false shows the stale state after a recovered panic."
},
"C52": {
"status": "partial",
"note": "Extension and ZeroPad exact for all kernels/sequences; Periodic and Reflection exact except at the left end, where the code is wrong (C52_periodic_false, C52_reflection_false, C52_get_false)"
},
"C66": {
"status": "partial",
"note": "smoothing and first derivative kernels for all orders and widths, all derivatives up to order 3; false for the second derivative with order 4 (C66_second_derivative_false)"
},
"C67": {
"status": "partial",
"note": "first use of a window; later calls use the stale kernel (C67_history_false)"
},
"C43": {
"status": "proved",
"note": "all profiles"
},
"C44": {
"status": "proved",
"note": "Go maps are lists of entries; the range order over a map is shown not to matter."
},
"C68": {
"status": "proved",
"note": "Panics are modelled."
},
"C49": {
"status": "partial",
"note": "prof mode: false of the code (returns nil, nil after the first matched file), proved for every catalog; holds when nothing is matched. phase mode: proved over all files. Catalogs starting with the marker -1 and unknown or empty snapshots crash prof (witnesses). The potential mode is C79."
},
"C50": {
"status": "partial",
"note": "Exact for density, contained-density, bound-density and total-velocity profiles over the reals. Radial velocity: false just below the range (truncation), proved otherwise. Median profiles: pixel level 1 plane crashes."
},
"C48": {
"status": "partial",
"note": "Order 2 is exact (proved for all polynomials of degree <= 2 on all uniform grids). Order 4 is exact at the ends only; inner points are 4/3 of the derivative (C48_order4_false). Order 0 returns xs; nonuniform grids are wrong at the ends. All panics characterised."
},
"C47": {
"status": "partial",
"note": "Inverse, monotone, nested, correct densities and units proved over the reals; MassString(R500c) returns \"R500c\" (C47_mass_name_false); mean density wrong for non-flat cosmologies (C47_open_false)."
},
"C46": {
"status": "partial",
"note": "Exact contents of every line proved; the order agrees with the header when 'integers first' is an involution, false otherwise (C46_columns_false). Values per row proved for every map order; one cosmology for all snapshots (C46_redshift_false), unit label (C46_units_false) and R2500c panic (C46_r2500c_false)."
},
"C69": {
"status": "partial",
"note": "Listed values, generated radii and unknown names proved for all configurations with distinct names; GetColumn of an unknown name returns column 0 (C69_unknown_false)."
},
"C45": {
"status": "partial",
"note": "Histories are complete, ordered, one line per snapshot, taken from the first file that has the halo; a missing halo is an error. The documented -1 sentinels never appear for SnapMin >= 0 (C45_sentinel_false) and repeated SelectSnaps repeat lines (C45_repeated_false)."
},
"C51": {
"status": "partial",
"note": "Files with any layout and any subset of the (also commented-out) settings shown by the examples are accepted for id, tree, stats, shell, prof, check and the global configuration (iff its directories exist or can be made). False for coord, phase, potential (wrong header), potential's NCells, and the bracketed NilSnapScaleFactors: _false theorems. strconv.ParseFloat and strings.ToLower are parameters with stated assumptions (GoLib)."
},
"C70": {
"status": "partial",
"note": "Exact acceptance conditions for shell, id, stats, prof, phase, potential and check, for every file and flag list, in terms of the meaning of files and flags. False: nothing is checked without file and flags, even smoothing windows, M200mMin > M200mMax, RMinMult > RMaxMult or no bins in prof, NaN."
},
"C71": {
"status": "partial",
"note": "Exact acceptance condition for every file and directory state (C71_accepted_iff); it implies the documented one under two conditions (C71_documented_partial). False: versions 2.x accepted, NilSnapOmegaL unset masks the later checks, TreeDir required with TreeType nil and not required with consistent-trees when HaloType is nil, Logging = debugging refused."
},
"C72": {
"status": "partial",
"note": "Proved for all shells and draws: bounds, exactness for spheres, monotonicity, scaling, cube volume, containment, histogram density and norm, maximal difference over the samples. False of the code: RadialRange only covers the sampled directions (C72_range_false), DiffVolume is too small by a factor between 3 and 4 (C72_difference_partial, _false), the median for odd numbers of samples is one rank too high."
},
"C73": {
"status": "partial",
"note": "Proved exactly what the profile contains (C73_counts) and the property for shells inside of the range (C73_fraction_partial); false of the code when the shell leaves the range (C73_beyond_false, C73_below_false)."
},
"C74": {
"status": "partial",
"note": "Inertia tensor, sorting (up to an exact tie) and lengths proved; the direction is right only when the longest axis is eigenvector 0 and perpendicular to the right one otherwise (C74_direction_false). The eigenvalue decomposition itself is gonum's and an argument."
},
"C75": {
"status": "partial",
"note": "Evaluation, least squares, exact recovery, orders and existence of determining points for every order are proved (gonum's inverse of a non-singular matrix is a hypothesis). False of the code: singular systems (too few points; three powers of every coordinate) are not reported (C75_few_points, C75_dependent, C75_singular_false), a point on the z axis makes all coefficients NaN (C75_axis_false)."
},
"C76": {
"status": "partial",
"note": "Density estimate, bins, maxima, connection rule, anchors and the filter are proved for all points. False of the code: points are kept within dr/2, not dr (C76_filter_false); ok is never false and rings without a candidate or without an interior maximum panic (C76_never_false, C76_ok_false, C76_tree)."
},
"C77": {
"status": "proved",
"note": "Every line of sight separately, the plane and volume positions agree, history of the buffers is irrelevant."
},
"C78": {
"status": "partial",
"note": "Exact characterisation of the columns for every schedule (C78_columns); correct masses and ids under the stated conditions; witnesses for the unread file, the sampled range, the half-box wrap, the squared lower limit and the exponent of R_sp."
},
"C79": {
"status": "partial",
"note": "Exact maps for every interleaving (C79_insert, C79_maps) and the potential of all particles in range under the stated conditions; the coordinates of R are wrong for every grid (C79_coordinates_false)."
},
"C80": {
"status": "partial",
"note": "C80_rows_partial and C80_independent_partial: for rows with a positive radius, a snapshot other than -1, halo + kernel at most half a box; the floor density depends on the first snapshot (C80_cosmology_false). Witnesses for the failing rest: C80_radius_false, C80_marker_false."
},
"C81": {
"status": "partial",
"note": "C81_percentile: exact rank for all percentiles; it is the median for 50 and an even number of lines (C81_half_partial, C81_median_partial); C81_reversed_false: other percentiles are counted from the largest; C81_ragged_false: a blank row panics."
},
"C82": {
"status": "partial",
"note": "C82_profile_partial: exact rank over the pixels (pixel boundary of C39 left out); C82_reversed_false; C82_samples_false: NaN for Samples = 0; C82_fractions_partial: shells within the radii of the profile. In floating point the variance may be a tiny negative number (NaN); the model is over the real numbers."
},
"C83": {
"status": "partial",
"note": "All documented defaults hold for every file and flag list, except ExclusionRadiusMult of id: documented default 0.8, actual 1 (C83_radius_false)."
},
"C84": {
"status": "partial",
"note": "Exact list of failed checks for all simulations in which no particle of the halo's snapshot is wrapped; false at the box edge (C84_edge_false), for particles half a box away (C84_far_false), for masses outside the first file (C84_other_files_false) and for stated zeros (C84_zero_false)."
},
"C85": {
"status": "partial",
"note": "Proved for pipes of any length for error exits; false for panics (later commands end with status 0), for a command without arguments, for global configurations that print an empty line; TreeType nil is not refused; unknown help targets end with status 0."
},
"C86": {
"status": "partial",
"note": "Corners, cross-section and sides exact for every slice made; slices are made when corners stay 1e-5 apart (C86_ok_partial); ray query and ranges under stated hypotheses; witnesses for touching planes, tiny tetrahedra, rays through corners, equal first angles and minimal radius on a side."
},
"C87": {
"status": "partial",
"note": "Lines exact up to the 1e-5 tolerance; Solve sound; witnesses for vertical against near-horizontal lines reported parallel, stale slopes of reused vertical lines, and InitFromPlucker off the origin."
},
"C88": {
"status": "partial",
"note": "Everything is proved for all five solids except UniqueNormals of the icosahedron, which returns two opposite normals and misses a plane (C88_unique_false)."
},
"C89": {
"status": "proved",
"note": "Exact real arithmetic; random numbers are independent uniform draws (the generator itself is not modelled here)."
},
"C90": {
"status": "partial",
"note": "The writer's own check is sound (C90_checked) and on a disk that keeps what is written the file holds the data (C90_written, C90_stats_partial). The full claim is false as coded: the error of writeShellParticles is dropped (cmd/stats.go:345), and without masses no file is written (C90_dropped_false, C90_skipped_false)."
},
"C91": {
"status": "partial",
"note": "Proved for blocks of the fileset the buffer was made for, after every history of calls. The claim for other filesets is false (C91_other_fileset_false: the fileset of the first name is used for every read), as are the error claims (C91_no_species_false, C91_error_dropped_false). go-artio itself is modelled by what its calls deliver."
},
"C92": {
"status": "partial",
"note": "Exact arithmetic (no rounding). LGadget-2, Gadget-2 (little endian), gotetra: whole Read and ReadHeader, totals. Missing/false: Gadget-2 MinMass is 0; BolshoiP MinMass differs from the masses; Bolshoi headers count dropped particles; gotetra TotalParticles is -1."
},
"C93": {
"status": "proved",
"note": "The generator is an idealised stream of independent uniform triples (hypothesis Draws); the loop is the same definition normLoopOn that normVecs uses with the Xorshift generator. Vectors are real numbers, not float32."
},
"C94": {
"status": "partial",
"note": "Proved over all histories of sequential runs with arbitrary crash points: one set of settings per directory, reuse only with own settings, refusals change nothing. The last clause and the concurrent clause are false of the code: an interruption during the copy of memo.config disables the directory for every later run (C94_stuck_false), and two runs started together with different settings are both accepted (C94_race_false); the exact conditions are C94_interrupted_iff, C94_again_partial, C94_sequential_partial."
},
"C95": {
"status": "partial",
"note": "False: a 150 cell grid (id mode) panics for positions next to the box edge (C95_grid_false), a plateau starting just below the outer radius lands on the next line or panics (C95_ring_false), an interpolator on a fine grid far from 0 gets an index outside its table (C95_search_false), Uniform and UniformInt can return their upper bound (C95_uniform_false). Proved: power of two grids, at most one cell too far in general, rings for ends clearly away from the outer radius, prof, phase and theta bins without restriction, grids starting at 0, ranges that are not tiny."
},
"C96": {
"status": "proved",
"note": ""
},
"C97": {
"status": "partial",
"note": "True of shell, stats, prof, the angular fraction and potential; false of phase, whose header swaps the number of radius and velocity columns whenever RBins and VBins differ (C97_phase_false, for all differing bin counts; C97_phase_partial when they agree)."
},
"C98": {
"status": "partial",
"note": "Proved for Order of stats or prof \u2264 Order of shell what they compute with, and that a larger Order is refused. False: a smaller Order is accepted silently and denotes another shell (C98_order_false); an empty catalog makes stats panic instead of printing its message (C98_empty_stats_false)."
},
"C99": {
"status": "proved",
"note": "The kernels are cached by window width only (los/analyze/smooth.go), which is harmless here because all halos of a run share log(rMax/rMin)/bins (see C67_history_false for histories where it is not). Arithmetic is real; the matrix inverse is a parameter."
},
"C100": {
"status": "partial",
"note": "False of the first parallel call of a stats run (C100_stats_false): it starts as many threads as the runtime was set to before, because the result of runtime.GOMAXPROCS is taken for the new setting. True of every later call, and of the shell, prof and potential modes."
},
"C101": {
"status": "partial",
"note": "Proved for the shell, prof and potential modes (C101_own_values, C101_joined: any arithmetic, fixed number of threads). For the stats mode C101_collected gives exactly the possible results: those of all orders of the workers. They agree for up to two threads and for masses that are multiples of one power of two (C101_two_partial, C101_exact_partial), and always up to rounding (C101_close); false in general (C101_masses_false, C101_ids_false; C101_threads_false for different numbers of threads)."
},
"C102": {
"status": "partial",
"note": "false of the code: in float32 small steps of the origin are lost when they are added to the width (C102_drift_false, C102_missed_false); proved: containment up to n 2^-22 box widths"
},
"C103": {
"status": "partial",
"note": "false of the code: ids are read as float64, so that odd ids above 2^53 select no row (C103_large_false) or hide another halo (C103_hidden_false); proved for ids up to 2^53"
},
"C104": {
"status": "partial",
"note": "false of the code: with 9 cells across 250 Mpc a float32 position is in no file (C104_lost_false), with 7 cells one is in two (C104_twice_false); proved away from the borders, and exactly if all multiples of the cell width are float32 numbers"
},
"C105": {
"status": "proved",
"note": "Go's fmt.Sprintf(\"%.6g\") and strconv.ParseFloat are modelled on rational numbers from the source of package strconv: no infinities, NaN, subnormal numbers or signed zeros."
},
"C106": {
"status": "partial",
"note": "Proved for pipes (every schedule gives the outputs, the disk and the cache files of the commands run one after the other, and the pipe cannot get stuck) and for the final content of the cache file (complete once all commands are through). False for unrelated commands at the same time: one that finds the cache file while another is making it goes on with zero headers (C106_zero_headers_false) or with a catalogue without halos (C106_no_halos_false); what holds is C106_late_partial: a command that looks when nobody is making the file gets the whole content."
},
"C107": {
"status": "partial",
"note": "Proved for every slice: no panic, the values are kept, order statistics are members; sorted and ranked by value when there is no NaN. The last sentence is false: two values on the two sides of a NaN stay in descending order and the largest value is not found (C107_nan_false)."
},
"C108": {
"status": "partial",
"note": "Proved for catalogues in the box (clearly below its end, or a power of two of cells), radii that are zero or at least 2^-39 box widths and searches that do not reach around the box: the grid search equals the search without a grid (C108_search_partial), and the test is the distance test up to 2^-48 box widths (C108_accuracy, C108_distances_partial). False otherwise: halos just below the end of the box (C95_grid_false), a tiny radius at the periodic boundary loses a halo at the same place (C108_tiny_false), the caller's radii come back changed in the last bit (C108_radii_false, bounded by C108_radii)."
},
"C109": {
"status": "partial",
"note": "Exact for the first two coordinates, for the first and any other, and for the first three. False of the third and fourth, and of the fifth and sixth coordinates: C109_empty_boxes_false shows boxes of area 1/16 that no point of the whole sequence ever enters (the recurrence reads index j-1 for every term)."
},
"C110": {
"status": "partial",
"note": "False of the code: the table for the longest axis is upside down (C110_flipped), so that a sphere of radius R is given the axes 1.1153 R, 1.1164 R, 1.1073 R (C110_sphere_false); shells with an axis ratio below 0.2069 make Axes, and with it the stats mode, panic (C110_elongated_false), and so do flat shells with an exact tie (C110_oblate_false). Proved: independence of history, the exact set of shapes that panic, the corrections at the nodes of the tables."
},
"C111": {
"status": "proved",
"note": "Real arithmetic and independent uniform draws are assumed, as in C89."
},
"C112": {
"status": "partial",
"note": "False of the code: when the rounded square of the impact parameter is larger than the rounded squared distance of the center, the far end of the line is NaN, both comparisons of Insert are false, and the density of the particle is added to all bins up to rMax (C112_nan, C112_endless, C112_line_false for every such sphere, C112_end_false for a sphere of radius 2 around (1,-1,0) and the line at 45 degrees). Proved for all other lines: the far end is a non-negative number, at most the distance plus the radius, and exact up to 2^-25 of them (C112_end_partial, C112_accuracy_partial)."
},
"C113": {
"status": "partial",
"note": "False of the code: the squared distance is rounded to float32, so that within 2^-12 of a pole dz/r can be larger than 1, Acos is NaN, the comparison theta > Pi/2 is false and the NaN becomes the smallest integer, whose arithmetic overflows to ring 1: the particle is counted in the first ring of the north, also when it is at the south pole (C113_nan_disk, C113_nan_false, C113_pole_false), and at MedianPixelLevel 1 the program panics; at level 24 the index in a ring rounds up to a full turn and the program panics (C113_level_false). Proved for levels 2 to 23 and all particles with a polar angle (C113_range_partial)."
},
"C114": {
"status": "partial",
"note": "False of the code: formats without separators such as s%d%d are accepted, and block 11 of snapshot 1 has the file of block 1 of snapshot 11 (C114_adjacent_false); with scale factors instead of snapshot numbers, equal lines of the scale factor file share all files (C114_scale_false). Proved for formats that name the snapshot by number and have after every argument but a last one a character that occurs in no argument (C114_distinct_partial), which includes the format of the example configuration."
},
"C115": {
"status": "partial",
"note": "False as stated: the error of io.ReadAtLeast is dropped and a file shorter or longer than its reported size is read as another catalogue (C115_short_false, C115_comment_false, C115_unused_false). Proved: what can be returned then is the leading rows plus at most one cut row; with no cut column asked for, exactly leading rows; NUL padding is noticed when the last column is asked for and no comment is cut."
},
"C116": {
"status": "partial",
"note": "Proved for float64 points, the sine, and ring normals (all draws). False for float32 particle positions very near the axis (C116_axis_false): the quotient exceeds 1, the angle is NaN and the particle is not listed; proved for points at least a two-thousandth of their height from the axis."
},
"C117": {
"status": "partial",
"note": "False when the resampled percentiles (nearly) agree: three equal samples of 0.1 give NaN (C117_equal_false). Proved: exact condition for NaN, and accuracy when the variance exceeds the rounding level."
},
"C118": {
"status": "partial",
"note": "Proved for fresh output, disjoint output, and evaluation in place; tables not written to. False when the output slice overlaps the points with a shift (C118_shifted_false), is the table (C118_table_false), or when the values of a spline are overwritten (C118_ends_false)."
},
"C119": {
"status": "partial",
"note": "C119_long_partial: chords longer than about 2^-19 of the scale are raised, with both ends accurate to a 2^-19 of the scale; C119_miss_partial, C119_insert_partial: lines that miss by that margin are untouched; C119_safe: no panic unless the projected centre is the ring's centre (C119_center_false); C119_once_partial for five or more lines, C119_once_false for one line. atan2, asin and sincos are parameters with errors up to 2^-50."
},
"C120": {
"status": "partial",
"note": "Proved for Xorshift: Next in [0,1), batches, Uniform in [low, high] and below high when |high| <= 2^19 (high-low), UniformInt for bounds up to 2^18. False in general: Uniform(2^53, 2^53+2) and UniformInt there can return the upper bound (C120_uniform_false, C120_int_false), and Tausworthe can return 1 by rounding (C120_taus_false); for it [0,1] is proved."
},
"C121": {
"status": "partial",
"note": "Proved: no panic, result at least the default density and within (calls+bins+workers)/2^47 times the sum of the densities of the exact coverage, for every distribution over workers (C121_profile_partial, C121_threads_partial). Equality is false: a dense and a thin plateau leave a negative density behind (C121_negative_false), and one and two threads differ in the last bit (C121_threads_false). Missing: plateaus ending within 2^-45 of the outer radius, where the index can be out of range (C95_ring_false)."
},
"C122": {
"status": "partial",
"note": "Proved with a margin of (n+1)/2^22 box widths for files of n particles (C122_selected_partial) and small or box-filling regions; nothing is invented or repeated (C122_subset). False without a margin (C122_rounding_false) and with small margins for large files: with 2^23 particles the region can lose 1/8 of a length unit of a box of 100 and the file is skipped although a particle is at half the halo's radius (C122_drift_false)."
},
"C123": {
"status": "proved",
"note": "Full for the table searchers: C123_linear, C123_bilinear; C123_knots_false shows that the bound cannot be zero. Uniform grids: C95 (search) only."
},
"C124": {
"status": "proved",
"note": "full period and exact equidistribution of the generator (exact and rounded numbers), one cycle for all seeds; termination, length and angles of the ring normals"
},
"C125": {
"status": "proved",
"note": "prof, median and phase binning with rounding; hypotheses ProfOk/PhaseGrid.Ok (limits within 2^\u00b164, bins wider than 2^-20 in the logarithm, at most 2^40 bins); overflow and subnormal numbers are not modelled"
},
"C126": {
"status": "proved",
"note": "densities, radii and velocities of the prof and phase modes with rounding; median and error profiles divide other sums by the same volumes and are not included; overflow and subnormal numbers are not modelled"
},
"C127": {
"status": "proved",
"note": "For cells of the grid (C127_outside_false: numbers outside of the grid are not brought into it, which the English claim does not say). Exact arithmetic for the sphere."
},
"C128": {
"status": "proved",
"note": "Functions of package math by their accuracy (hypothesis Accurate, met by cutMath). C128_pole_false shows that the margin near the poles cannot be reduced to machine precision."
},
"C129": {
"status": "proved",
"note": "Functions of package math by their accuracy; rand.Float64 by its results. The median is the element of rank n/2, as in C02."
},
"C130": {
"status": "partial",
"note": "Proved: particles within half a box of the halo and farther from the shell than the margin are counted exactly if inside (C130_counted, C130_centre), the mass of a file for all schedules (C130_mass), the list of particles off the polar axis (C130_inside_partial, C130_width_partial).  False in the code: particles on the polar axis are missing from the list because the cosine exceeds 1 (C130_axis_false); a negative lower limit is squared (C130_negative_false); see also C78 for wrap and large widths."
},
"C131": {
"status": "proved",
"note": "All three criteria and the whole profile. Hypotheses: no particle needs a periodic shift (the shift itself is wrong, C78), concentration at least 1, for the bound profile distance at least a 32nd of the scale radius, particles not within the stated margin of the criterion."
},
"C132": {
"status": "partial",
"note": "C132_used, C132_potential_partial: all maps, for particles clear of the limits and of the point of the cell. A particle at the point of a cell makes it infinite (C132_infinite_false). Overflow is not modelled."
},
"C133": {
"status": "partial",
"note": "Proved for the code as it is: the first velocity bin reaches one bin below the lowest velocity (C133_low_false shows such a particle). Particles across the periodic boundary are left out: their displacement is wrong in the code (C37_displacement_false)."
},
"C134": {
"status": "partial",
"note": "C134_smoothed, C134_steepest: everything but the last sentence, for all kernels given as float64 weights with a stated error (the rounding of the linear system that gives the weights is not modelled). False: the profile is not restored exactly, whatever exponential function is used (C134_restored_false); C134_smoothed bounds the change."
},
"C135": {
"status": "partial",
"note": "C135_own_partial: slices of their own (exact also behind the end of the profile), for all stored kernels that can arise (C135_stored). False in place: C135_in_place_false (all constant profiles), C135_slopes_false (all profiles), C135_both_false. Real arithmetic."
},
"C136": {
"status": "partial",
"note": "C136_trilinear_partial, C136_knots_partial: everything for grids whose third table is the second one. False otherwise (C136_third_false: the code looks z up in the table of y), for all grids that reach beyond the second table. Overflow is not modelled."
},
"C137": {
"status": "partial",
"note": "C137_fraction_partial: everything for shells between the limits of the profile. Shells that leave the limits are wrong in the code even in exact arithmetic (C73_beyond_false, C73_below_false)."
},
"C138": {
"status": "partial",
"note": "The exponent range of float64 (overflow, subnormal numbers) is not modelled; math.Pow is assumed to have the stated accuracy."
},
"C139": {
"status": "partial",
"note": "The exponent 0.33333 of the code makes R_sp differ from the radius of the ball (C78_rsp_false); the theorems bound the difference. The exponent range of float64 is not modelled."
},
"C140": {
"status": "partial",
"note": "The exponent range of float64 (overflow, subnormal numbers) is not modelled; flat cosmologies only (see C47_open_false); math.Pow is assumed to have the stated accuracy."
},
"C141": {
"status": "partial",
"note": "Overflow and subnormal numbers are not modelled; the strict bound y < TotalWidth is false (C141_inside_false)."
},
"C142": {
"status": "partial",
"note": "Overflow and subnormal numbers are not modelled."
}
}