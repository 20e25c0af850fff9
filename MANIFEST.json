{
 "claims": [
  {
   "property": "C01",
   "status": "proved",
   "theorems": [
    "Shellfish.Sort.C01_quick_sorts",
    "Shellfish.Sort.C01_shell_sorts",
    "Shellfish.Sort.C01_quick_eq_shell",
    "Shellfish.Sort.C01_reverse"
   ],
   "note": "Quick and Shell sort every input; sorted permutation; agree."
  },
  {
   "property": "C02",
   "status": "partial",
   "theorems": [
    "Shellfish.Sort.C02_nthLargest",
    "Shellfish.Sort.C02_nthLargest_eq_sorted",
    "Shellfish.Sort.C02_nthLargest_refuses",
    "Shellfish.Sort.C02_median_false",
    "Shellfish.Sort.C02_median_even_partial",
    "Shellfish.Sort.C02_median_odd_rank"
   ],
   "note": "NthLargest proved in full. The Median claim is false of the code (C02_median_false): proved for even lengths, exact rank given for odd lengths."
  },
  {
   "property": "C03",
   "status": "partial",
   "theorems": [
    "Shellfish.Sort.C03_percentile_rank",
    "Shellfish.Sort.C03_percentile_false",
    "Shellfish.Sort.C03_percentile_antitone",
    "Shellfish.Sort.C03_percentile_half_partial"
   ],
   "note": "The ascending-percentile reading is false of the code (C03_percentile_false): rank formula proved for all p and lists, order reversed."
  },
  {
   "property": "C04",
   "status": "proved",
   "theorems": [
    "Shellfish.Version.C04_parse_iff",
    "Shellfish.Version.C04_parse_canonical",
    "Shellfish.Version.C04_later_iff",
    "Shellfish.Version.C04_later_irrefl",
    "Shellfish.Version.C04_later_asymm",
    "Shellfish.Version.C04_later_trans",
    "Shellfish.Version.C04_later_total",
    "Shellfish.Version.C04_later_error"
   ],
   "note": ""
  },
  {
   "property": "C05",
   "status": "proved",
   "theorems": [
    "Shellfish.Config.C05_success_iff",
    "Shellfish.Config.C05_errors"
   ],
   "note": "strings.ToLower and strconv.ParseFloat are parameters; int range and list syntax modelled."
  },
  {
   "property": "C06",
   "status": "proved",
   "theorems": [
    "Shellfish.Config.C06_layout"
   ],
   "note": "Blank lines, comments, blanks (not tabs: the code trims only blanks), letter case, order."
  },
  {
   "property": "C07",
   "status": "proved",
   "theorems": [
    "Shellfish.Config.C07_flags_iff",
    "Shellfish.Config.C07_override",
    "Shellfish.Config.C07_arguments",
    "Shellfish.Config.C07_bad_flags_refused"
   ],
   "note": ""
  },
  {
   "property": "C08",
   "status": "partial",
   "theorems": [
    "Shellfish.Config.C08_config_panic_iff",
    "Shellfish.Config.C08_config_false",
    "Shellfish.Config.C08_config_no_panic_partial",
    "Shellfish.Config.C08_flags_panic_iff",
    "Shellfish.Config.C08_flags_false"
   ],
   "note": "False of the code (C08_config_false, C08_flags_false); exact panic conditions proved for files and flags."
  },
  {
   "property": "C09",
   "status": "proved",
   "theorems": [
    "Shellfish.Catalog.C09_words",
    "Shellfish.Catalog.C09_round_trip",
    "Shellfish.Catalog.C09_aligned",
    "Shellfish.Pipe.C09_int64"
   ],
   "note": "Integer and float columns, any order, any comment lines before; %.6g/ParseFloat are parameters (rd)."
  },
  {
   "property": "C10",
   "status": "partial",
   "theorems": [
    "Shellfish.Catalog.C10_ok_iff",
    "Shellfish.Catalog.C10_panic_iff",
    "Shellfish.Catalog.C10_no_panic_partial",
    "Shellfish.Catalog.C10_longer_row_panics",
    "Shellfish.Catalog.C10_carriage_return_panics"
   ],
   "note": "Exact result for every plain text; crash characterised. The claim that long rows are rejected is false of the code (C10_longer_row_panics)."
  },
  {
   "property": "C11",
   "status": "proved",
   "theorems": [
    "Shellfish.Catalog.C11_header",
    "Shellfish.Catalog.C11_ranges_partition"
   ],
   "note": ""
  },
  {
   "property": "C12",
   "status": "partial",
   "theorems": [
    "Shellfish.Env.C12_interleave",
    "Shellfish.Env.C12_snapshot_files",
    "Shellfish.Env.C12_format_without_snapshot_false",
    "Shellfish.Env.C12_nil_false",
    "Shellfish.Env.C12_nil_partial",
    "Shellfish.Env.C12_gotetra"
   ],
   "note": "Proved for formats that mention the snapshot (number or scale factor) and for nil snapshots starting at 0; false otherwise (C12_format_without_snapshot_false, C12_nil_false)."
  },
  {
   "property": "C13",
   "status": "proved",
   "theorems": [
    "Shellfish.Filter.C13_round_trip"
   ],
   "note": ""
  },
  {
   "property": "C14",
   "status": "partial",
   "theorems": [
    "Shellfish.Filter.C14_recorded",
    "Shellfish.Filter.C14_start_correct_iff_partial",
    "Shellfish.Filter.C14_second_halo_false"
   ],
   "note": "False of the code from the second halo on (C14_second_halo_false); exact condition proved."
  },
  {
   "property": "C15",
   "status": "proved",
   "theorems": [
    "Shellfish.Rand.C15_next",
    "Shellfish.Rand.C15_nextSeq_eq_draws",
    "Shellfish.Rand.C15_nextSeq_range",
    "Shellfish.Rand.C15_uniform_range",
    "Shellfish.Rand.C15_uniformInt_range",
    "Shellfish.Rand.C15_uniformAt_eq",
    "Shellfish.Rand.C15_uniform_eq"
   ],
   "note": "float64 modelled as exact rationals."
  },
  {
   "property": "C16",
   "status": "proved",
   "theorems": [
    "Shellfish.Rand.C16_next",
    "Shellfish.Rand.C16_nextSeq_eq_draws",
    "Shellfish.Rand.C16_indices"
   ],
   "note": "Golang seeding values arbitrary in the documented range."
  },
  {
   "property": "C17",
   "status": "partial",
   "theorems": [
    "Shellfish.Sobol.C17_range",
    "Shellfish.Sobol.C17_distinct",
    "Shellfish.Sobol.C17_equidistributed",
    "Shellfish.Sobol.C17_exhausted",
    "Shellfish.Sobol.C17_dim_refused",
    "Shellfish.Sobol.C17_first_points_false",
    "Shellfish.Sobol.C17_reinit_not_fresh"
   ],
   "note": "Range, distinctness, equidistribution of aligned blocks (numbered from 2), exhaustion proved. 'First 2^k-1 points with 0 are the multiples of 2^-k' is false of the code (C17_first_points_false)."
  },
  {
   "property": "C18",
   "status": "proved",
   "theorems": [
    "Shellfish.Par.C18_waits_for_all",
    "Shellfish.Par.C18_unlock_never_blocks",
    "Shellfish.Par.C18_no_deadlock",
    "Shellfish.Par.C18_no_infinite_run",
    "Shellfish.Par.C18_can_finish",
    "Shellfish.Par.C18_lock_group"
   ],
   "note": "All interleavings of unlocks and the waiter, any number of workers."
  },
  {
   "property": "C19",
   "status": "proved",
   "theorems": [
    "Shellfish.Par.C19_each_index_once",
    "Shellfish.Par.C19_no_shared_index",
    "Shellfish.Par.C19_result_independent_of_schedule",
    "Shellfish.Par.C19_mass",
    "Shellfish.Par.C19_ids"
   ],
   "note": "Any worker count; float additions modelled as exact (rational) sums, so order independence is up to float rounding."
  },
  {
   "property": "C20",
   "status": "partial",
   "theorems": [
    "Shellfish.Los.C20_halo",
    "Shellfish.Los.C20_run",
    "Shellfish.Los.C20_distribution_irrelevant",
    "Shellfish.Los.C20_join_mismatch",
    "Shellfish.Los.C20_split_join_neutral",
    "Shellfish.Los.C20_stale_width_false"
   ],
   "note": "Rings, whole halos and whole runs with reused workers proved in exact arithmetic when all halos have the same ratio of outer and inner radius (as the shell mode creates them); false without it (C20_stale_width_false)."
  },
  {
   "property": "C21",
   "status": "proved",
   "theorems": [
    "Shellfish.Los.C21_profile",
    "Shellfish.Los.C21_order_irrelevant",
    "Shellfish.Los.C21_outside"
   ],
   "note": "Exact arithmetic; plateau ends may be minus infinity."
  },
  {
   "property": "C22",
   "status": "proved",
   "theorems": [
    "Shellfish.Finder.C22_cells",
    "Shellfish.Finder.C22_far_false",
    "Shellfish.Finder.C22_far_panic_false"
   ],
   "note": "All ordered fields, cell counts and position lists within one box width of the box; the two _false theorems show that positions further away land in a wrong cell or panic."
  },
  {
   "property": "C23",
   "status": "partial",
   "theorems": [
    "Shellfish.Finder.C23_exact_partial",
    "Shellfish.Finder.C23_split_partial",
    "Shellfish.Finder.C23_twice_false",
    "Shellfish.Finder.C23_panic_false",
    "Shellfish.Finder.C23_empty_false"
   ],
   "note": "Exact for positions in [0,W) and radii with 2(r+r')+cell width <= W; for larger radii the statement is false (C23_twice_false, C23_panic_false) and an empty catalogue panics (C23_empty_false). Exact arithmetic."
  },
  {
   "property": "C24",
   "status": "partial",
   "theorems": [
    "Shellfish.Finder.C24_lists_partial",
    "Shellfish.Finder.C24_converse"
   ],
   "note": "Converse, order and counts for every run that returns, without any hypothesis on positions and radii; absence of duplicates under the hypotheses of C23 (false for large radii: C23_twice_false)."
  },
  {
   "property": "C25",
   "status": "partial",
   "theorems": [
    "Shellfish.IdMode.C25_list",
    "Shellfish.IdMode.C25_ids",
    "Shellfish.IdMode.C25_range_partial",
    "Shellfish.IdMode.C25_range_false",
    "Shellfish.IdMode.C25_mass_partial",
    "Shellfish.IdMode.C25_mass_empty_false",
    "Shellfish.IdMode.C25_mass_high_false"
   ],
   "note": "IDs lists are exact (C25_list, C25_ids). IDStart/IDEnd and mass ranges omit the last halo: C25_range_partial and C25_mass_partial give the exact output, C25_*_false refute the documented behaviour (last halo dropped, panic on an empty mass range, IDs used when all halos are too heavy)."
  },
  {
   "property": "C26",
   "status": "partial",
   "theorems": [
    "Shellfish.Memo.C26_ranking_partial",
    "Shellfish.Memo.C26_end_false"
   ],
   "note": "Exact for every maxID except the number of halos (C26_ranking_partial); there the call panics (C26_end_false)."
  },
  {
   "property": "C27",
   "status": "partial",
   "theorems": [
    "Shellfish.Memo.C27_cached_partial",
    "Shellfish.Memo.C27_failed",
    "Shellfish.Memo.C27_interrupted_false"
   ],
   "note": "Missing or complete caches are exact (C27_cached_partial, C27_failed); after an interruption zero headers are returned (C27_interrupted_false)."
  },
  {
   "property": "C28",
   "status": "partial",
   "theorems": [
    "Shellfish.MemoConfig.C28_accept",
    "Shellfish.MemoConfig.C28_stored",
    "Shellfish.MemoConfig.C28_headers_partial",
    "Shellfish.MemoConfig.C28_halos",
    "Shellfish.MemoConfig.C28_nil_fresh",
    "Shellfish.MemoConfig.C28_nil_false",
    "Shellfish.MemoConfig.C28_units_false"
   ],
   "note": "C28_accept characterises acceptance exactly; headers are right for gotetra and ARTIO with the same scale factor file (C28_headers_partial), halo caches always (C28_halos); false for nil and Gadget settings (C28_nil_false, C28_units_false)."
  },
  {
   "property": "C29",
   "status": "proved",
   "theorems": [
    "Shellfish.Memo.C29_find",
    "Shellfish.Memo.C29_values"
   ],
   "note": "IntFinder for all lists; ReadRockstar returns the values of the requested rows for distinct ids."
  },
  {
   "property": "C30",
   "status": "partial",
   "theorems": [
    "Shellfish.Io.C30_swap_twice",
    "Shellfish.Io.C30_swap_where",
    "Shellfish.Io.C30_round_trip",
    "Shellfish.Io.C30_gadget2_twins",
    "Shellfish.Io.C30_header_false"
   ],
   "note": "blocks of numbers: proved for both orders; fails for the headers of Gadget-2 (ReadHeader) and LGadget-2 files, which are always decoded as little endian"
  },
  {
   "property": "C31",
   "status": "partial",
   "theorems": [
    "Shellfish.Io.C31_gadget2_partial",
    "Shellfish.Io.C31_total",
    "Shellfish.Io.C31_header_count",
    "Shellfish.Io.C31_header_count_false",
    "Shellfish.Io.C31_no_mass_block_false",
    "Shellfish.Io.C31_no_particles_false",
    "Shellfish.Io.C31_big_ids_false",
    "Shellfish.Io.C31_lgadget2_partial",
    "Shellfish.Io.C31_lgadget2_false"
   ],
   "note": "proved for well-formed files with particles and a mass block (Gadget-2) and little endian LGadget-2 files; fails without mass block, without particles, for 32-bit ids >= 2^31, big endian LGadget-2, duplicated types in the header count"
  },
  {
   "property": "C32",
   "status": "partial",
   "theorems": [
    "Shellfish.Round.C32_float32_partial",
    "Shellfish.Round.C32_float32_false",
    "Shellfish.Round.C32_float32_accepted",
    "Shellfish.Round.C32_float32_corrupt",
    "Shellfish.Io.C32_wrapped_partial",
    "Shellfish.Io.C32_rounded_partial",
    "Shellfish.Io.C32_rounding_false",
    "Shellfish.Io.C32_far_false",
    "Shellfish.Io.C32_corrupt",
    "Shellfish.Io.C32_all_partial"
   ],
   "note": "Exact arithmetic and float32: proved for positions within one box width (accepted, in [0, box width], an exact periodic image unless negative, then within a rounding). False: a coordinate just below zero is returned as the box width itself (C32_float32_false), and positions one to two box widths outside pass the corruption check and stay outside (C32_far_false, C32_float32_accepted); beyond that they are rejected (C32_float32_corrupt)."
  },
  {
   "property": "C33",
   "status": "partial",
   "theorems": [
    "Shellfish.Io.C33_contains",
    "Shellfish.Io.C33_tight",
    "Shellfish.Io.C33_empty_false"
   ],
   "note": "proved in exact arithmetic for non-empty blocks; an empty block panics"
  },
  {
   "property": "C34",
   "status": "partial",
   "theorems": [
    "Shellfish.Io.C34_discipline",
    "Shellfish.Io.C34_bolshoi_false"
   ],
   "note": "proved for gotetra, ARTIO, LGadget-2 and Gadget-2; the Bolshoi buffers have no open state"
  },
  {
   "property": "C35",
   "status": "proved",
   "theorems": [
    "Shellfish.Io.C35_segment",
    "Shellfish.Io.C35_segment_too_wide",
    "Shellfish.Io.C35_file_coords",
    "Shellfish.Io.C35_file"
   ],
   "note": "segment extraction, file coordinates and whole sheet files"
  },
  {
   "property": "C36",
   "status": "partial",
   "theorems": [
    "Shellfish.Los.C36_selected_partial",
    "Shellfish.Los.C36_sphere_partial",
    "Shellfish.Los.C36_subset",
    "Shellfish.Los.C36_large_region_false",
    "Shellfish.Los.C36_kernel_false"
   ],
   "note": "Proved for regions up to half the box minus the radius; false for larger ones (C36_large_region_false) and when the kernel radius counts (C36_kernel_false)."
  },
  {
   "property": "C37",
   "status": "partial",
   "theorems": [
    "Shellfish.Los.C37_nearest",
    "Shellfish.Los.C37_displacement_partial",
    "Shellfish.Los.C37_displacement_false"
   ],
   "note": "Transform proved for any sequence of halos; the displacement of stats, prof, phase and check is shifted by half a box (C37_displacement_false)."
  },
  {
   "property": "C38",
   "status": "partial",
   "theorems": [
    "Shellfish.Los.C38_cover",
    "Shellfish.Los.C38_no_extra_false",
    "Shellfish.Los.C38_one_spoke_false"
   ],
   "note": "Every line of sight in the extent is visited exactly once; the claim that no other is visited is false (C38_no_extra_false, C38_one_spoke_false)."
  },
  {
   "property": "C39",
   "status": "partial",
   "theorems": [
    "Shellfish.Geom.C39_disk_partial",
    "Shellfish.Geom.C39_disk_false",
    "Shellfish.Geom.C39_sphere_partial",
    "Shellfish.Geom.C39_sphere_false",
    "Shellfish.Geom.C39_particle_partial",
    "Shellfish.Geom.C39_disk_onto",
    "Shellfish.Geom.C39_sphere_onto"
   ],
   "note": "Indices are in range for every direction except two boundary cases, proved separately as C39_disk_false (level 0 at radius 1) and C39_sphere_false (level 1 on the equator), where the code returns an index that is out of range."
  },
  {
   "property": "C40",
   "status": "proved",
   "theorems": [
    "Shellfish.Geom.C40_ray",
    "Shellfish.Geom.C40_segment",
    "Shellfish.Geom.C40_anchored",
    "Shellfish.Geom.C40_dot",
    "Shellfish.Geom.C40_tetra",
    "Shellfish.Geom.C40_distance"
   ],
   "note": "Rays, segments, anchored rays and tetrahedra of lines; the permuted product, its sign, and the intersection distances are unchanged by translation. Real arithmetic."
  },
  {
   "property": "C41",
   "status": "partial",
   "theorems": [
    "Shellfish.Mat.C41_lu",
    "Shellfish.Mat.C41_determinant_partial",
    "Shellfish.Mat.C41_determinant_false",
    "Shellfish.Mat.C41_zero_column_false",
    "Shellfish.Mat.C41_solve_partial",
    "Shellfish.Mat.C41_solve_false",
    "Shellfish.Mat.C41_solve_triangular",
    "Shellfish.Mat.C41_invert_partial",
    "Shellfish.Mat.C41_invert_false",
    "Shellfish.Mat.C41_solve_matrix_false",
    "Shellfish.Mat.C41_mult_vec",
    "Shellfish.Mat.C41_vec_mult",
    "Shellfish.Mat.C41_mult_partial",
    "Shellfish.Mat.C41_mult_false",
    "Shellfish.Mat.C41_transpose"
   ],
   "note": "LU decomposition, determinant (non-singular matrices), MultVec, VecMult, Transpose: full. Mult: only equal widths or one row (C41_mult_false). SolveVector is right exactly when no rows are exchanged (C41_solve_partial is an equivalence; C41_solve_false, C41_invert_false); SolveMatrix ignores its argument (C41_solve_matrix_false); the determinant of a singular matrix may be wrong (C41_determinant_false). Exact arithmetic in an ordered field."
  },
  {
   "property": "C42",
   "status": "partial",
   "theorems": [
    "Shellfish.Interp.C42_linear",
    "Shellfish.Interp.C42_linear_between",
    "Shellfish.Interp.C42_uniform_linear",
    "Shellfish.Interp.C42_decreasing_false",
    "Shellfish.Interp.C42_bilinear",
    "Shellfish.Interp.C42_uniform_bilinear",
    "Shellfish.Interp.C42_trilinear_partial",
    "Shellfish.Interp.C42_trilinear_false",
    "Shellfish.Interp.C42_tridiag",
    "Shellfish.Interp.C42_tridiag_dominant",
    "Shellfish.Interp.C42_spline",
    "Shellfish.Interp.C42_spline_knots",
    "Shellfish.Interp.C42_deriv_end_false",
    "Shellfish.Interp.C42_two_points_false",
    "Shellfish.Interp.C42_spline_rejects",
    "Shellfish.Interp.C42_integrate_partial",
    "Shellfish.Interp.C42_integrate_false"
   ],
   "note": "Linear, bilinear (tables and uniform grids), TriDiag and natural cubic splines with derivatives are proved for all monotone tables. False and shown by witness theorems: decreasing tables for the linear interpolators, trilinear interpolation with different y and z tables, two-point splines, Deriv at the ends of decreasing tables, integrals whose lower bound is not a knot. Real arithmetic, no rounding."
  },
  {
   "property": "C43",
   "status": "proved",
   "theorems": [
    "Shellfish.Smooth.C43_splashback",
    "Shellfish.Smooth.C43_lengths"
   ],
   "note": "all profiles"
  },
  {
   "property": "C44",
   "status": "proved",
   "theorems": [
    "Shellfish.Cmd.C44_groups",
    "Shellfish.Cmd.C44_coeff_groups",
    "Shellfish.Cmd.C44_short_ids",
    "Shellfish.Cmd.C44_partition",
    "Shellfish.Cmd.C44_map_order"
   ],
   "note": "Go maps are lists of entries; the range order over a map is shown not to matter."
  },
  {
   "property": "C45",
   "status": "partial",
   "theorems": [
    "Shellfish.Tree.C45_history",
    "Shellfish.Tree.C45_histories",
    "Shellfish.Tree.C45_lines",
    "Shellfish.Tree.C45_run_partial",
    "Shellfish.Tree.C45_sentinel_false",
    "Shellfish.Tree.C45_missing",
    "Shellfish.Tree.C45_files",
    "Shellfish.Tree.C45_repeated_false"
   ],
   "note": "Histories are complete, ordered, one line per snapshot, taken from the first file that has the halo; a missing halo is an error. The documented -1 sentinels never appear for SnapMin >= 0 (C45_sentinel_false) and repeated SelectSnaps repeat lines (C45_repeated_false)."
  },
  {
   "property": "C46",
   "status": "partial",
   "theorems": [
    "Shellfish.Coord.C46_words",
    "Shellfish.Coord.C46_columns_partial",
    "Shellfish.Coord.C46_integers_first",
    "Shellfish.Coord.C46_header",
    "Shellfish.Coord.C46_values",
    "Shellfish.Coord.C46_run_partial",
    "Shellfish.Coord.C46_columns_false",
    "Shellfish.Coord.C46_r2500c_false",
    "Shellfish.Coord.C46_units_false",
    "Shellfish.Coord.C46_redshift_false"
   ],
   "note": "Exact contents of every line proved; the order agrees with the header when 'integers first' is an involution, false otherwise (C46_columns_false). Values per row proved for every map order; one cosmology for all snapshots (C46_redshift_false), unit label (C46_units_false) and R2500c panic (C46_r2500c_false)."
  },
  {
   "property": "C47",
   "status": "partial",
   "theorems": [
    "Shellfish.Radius.C47_densities",
    "Shellfish.Radius.C47_value",
    "Shellfish.Radius.C47_open_false",
    "Shellfish.Radius.C47_names",
    "Shellfish.Radius.C47_mass_name_partial",
    "Shellfish.Radius.C47_mass_name_false",
    "Shellfish.Radius.C47_radius",
    "Shellfish.Radius.C47_inverse",
    "Shellfish.Radius.C47_monotone",
    "Shellfish.Radius.C47_nested",
    "Shellfish.Radius.C47_units",
    "Shellfish.Radius.C47_units_panic"
   ],
   "note": "Inverse, monotone, nested, correct densities and units proved over the reals; MassString(R500c) returns \"R500c\" (C47_mass_name_false); mean density wrong for non-flat cosmologies (C47_open_false)."
  },
  {
   "property": "C48",
   "status": "partial",
   "theorems": [
    "Shellfish.Deriv.C48_order2",
    "Shellfish.Deriv.C48_order4_partial",
    "Shellfish.Deriv.C48_order4_false",
    "Shellfish.Deriv.C48_line_inner",
    "Shellfish.Deriv.C48_nonuniform_false",
    "Shellfish.Deriv.C48_order0_false",
    "Shellfish.Deriv.C48_panics"
   ],
   "note": "Order 2 is exact (proved for all polynomials of degree <= 2 on all uniform grids). Order 4 is exact at the ends only; inner points are 4/3 of the derivative (C48_order4_false). Order 0 returns xs; nonuniform grids are wrong at the ends. All panics characterised."
  },
  {
   "property": "C49",
   "status": "partial",
   "theorems": [
    "Shellfish.Cmd.C49_prof_particle_false",
    "Shellfish.Cmd.C49_unknown_false",
    "Shellfish.Cmd.C49_known",
    "Shellfish.Cmd.C49_phase_empty",
    "Shellfish.Cmd.C49_prof_empty_false",
    "Shellfish.Cmd.C49_phase",
    "Shellfish.Cmd.C49_prof_false",
    "Shellfish.Cmd.C49_prof_partial",
    "Shellfish.Cmd.C49_marker_first_false",
    "Shellfish.Cmd.C49_phase_all_files_partial",
    "Shellfish.Cmd.C49_phase_split_false"
   ],
   "note": "prof mode: false of the code (returns nil, nil after the first matched file), proved for every catalog; holds when nothing is matched. phase mode: proved over all files. Catalogs starting with the marker -1 and unknown or empty snapshots crash prof (witnesses). The potential mode is C79."
  },
  {
   "property": "C50",
   "status": "partial",
   "theorems": [
    "Shellfish.Cmd.C50_density",
    "Shellfish.Cmd.C50_one_bin",
    "Shellfish.Cmd.C50_processed",
    "Shellfish.Cmd.C50_volumes",
    "Shellfish.Cmd.C50_bound",
    "Shellfish.Cmd.C50_contained",
    "Shellfish.Cmd.C50_plain",
    "Shellfish.Cmd.C50_phase_velocity",
    "Shellfish.Cmd.C50_phase_range",
    "Shellfish.Cmd.C50_median_partial",
    "Shellfish.Cmd.C50_pixels_partial",
    "Shellfish.Cmd.C50_median_false",
    "Shellfish.Cmd.C50_phase_cells",
    "Shellfish.Cmd.C50_phase_total",
    "Shellfish.Cmd.C50_phase_radial_partial",
    "Shellfish.Cmd.C50_phase_radial_false",
    "Shellfish.Cmd.C50_phase_processed"
   ],
   "note": "Exact for density, contained-density, bound-density and total-velocity profiles over the reals. Radial velocity: false just below the range (truncation), proved otherwise. Median profiles: pixel level 1 plane crashes."
  },
  {
   "property": "C51",
   "status": "partial",
   "theorems": [
    "Shellfish.Modes.C51_shell",
    "Shellfish.Modes.C51_example_shell",
    "Shellfish.Modes.C51_id",
    "Shellfish.Modes.C51_example_id",
    "Shellfish.Modes.C51_tree",
    "Shellfish.Modes.C51_example_tree",
    "Shellfish.Modes.C51_stats",
    "Shellfish.Modes.C51_example_stats",
    "Shellfish.Modes.C51_prof",
    "Shellfish.Modes.C51_example_prof",
    "Shellfish.Modes.C51_check",
    "Shellfish.Modes.C51_example_check",
    "Shellfish.Modes.C51_phase_partial",
    "Shellfish.Modes.C51_coord_partial",
    "Shellfish.Modes.C51_header_false",
    "Shellfish.Modes.C51_ncells_false",
    "Shellfish.Modes.C51_global",
    "Shellfish.Modes.C51_example_global",
    "Shellfish.Modes.C51_nilscale_false"
   ],
   "note": "Files with any layout and any subset of the (also commented-out) settings shown by the examples are accepted for id, tree, stats, shell, prof, check and the global configuration (iff its directories exist or can be made). False for coord, phase, potential (wrong header), potential's NCells, and the bracketed NilSnapScaleFactors: _false theorems. strconv.ParseFloat and strings.ToLower are parameters with stated assumptions (GoLib)."
  },
  {
   "property": "C52",
   "status": "partial",
   "theorems": [
    "Shellfish.Smooth.C52_convolve",
    "Shellfish.Smooth.C52_convolve_partial",
    "Shellfish.Smooth.C52_interior",
    "Shellfish.Smooth.C52_short_panics",
    "Shellfish.Smooth.C52_constant",
    "Shellfish.Smooth.C52_range",
    "Shellfish.Smooth.C52_periodic_false",
    "Shellfish.Smooth.C52_reflection_false",
    "Shellfish.Smooth.C52_reverse",
    "Shellfish.Smooth.C52_get",
    "Shellfish.Smooth.C52_get_partial",
    "Shellfish.Smooth.C52_get_false",
    "Shellfish.Smooth.C52_tophat",
    "Shellfish.Smooth.C52_gaussian"
   ],
   "note": "Extension and ZeroPad exact for all kernels/sequences; Periodic and Reflection exact except at the left end, where the code is wrong (C52_periodic_false, C52_reflection_false, C52_get_false)"
  },
  {
   "property": "C53",
   "status": "partial",
   "theorems": [
    "Shellfish.Env.C53_unchecked_meaning_false",
    "Shellfish.Env.C53_missing_block_false",
    "Shellfish.Env.C53_logging_unchecked_false",
    "Shellfish.Env.C53_validate_false",
    "Shellfish.Env.C53_accepted_enumerates_partial",
    "Shellfish.Env.C53_numbered_block"
   ],
   "note": "False of the code (C53_*_false); proved when all meanings are well-formed."
  },
  {
   "property": "C54",
   "status": "proved",
   "theorems": [
    "Shellfish.Env.C54_halo_files"
   ],
   "note": ""
  },
  {
   "property": "C55",
   "status": "partial",
   "theorems": [
    "Shellfish.Geom.C55_rotation_between",
    "Shellfish.Geom.C55_keeps_dot",
    "Shellfish.Geom.C55_inverse",
    "Shellfish.Geom.C55_angular_distance",
    "Shellfish.Geom.C55_angle_in_range_partial",
    "Shellfish.Geom.C55_angle_in_range_end_false"
   ],
   "note": "AngleInRange misses an angle at the end of a full turn (C55_angle_in_range_end_false); all else proved."
  },
  {
   "property": "C56",
   "status": "partial",
   "theorems": [
    "Shellfish.Los.C56_insert_partial",
    "Shellfish.Los.C56_backward_false",
    "Shellfish.Los.C56_lines_partial"
   ],
   "note": "C56_lines_partial: exact for all lines of the first three quarters of each ring when the radius is small against RMin; the code leaves a mirror image on lines of the last quarter (C56_backward_false). Exact real arithmetic."
  },
  {
   "property": "C57",
   "status": "partial",
   "theorems": [
    "Shellfish.Los.C57_cut_partial",
    "Shellfish.Los.C57_center_false"
   ],
   "note": "Proved except for a particle exactly at the center (C57_center_false)."
  },
  {
   "property": "C58",
   "status": "proved",
   "theorems": [
    "Shellfish.Memo.C58_sorted",
    "Shellfish.Memo.C58_values"
   ],
   "note": "For every prefix of the cache files, and all catalogues that the configuration describes."
  },
  {
   "property": "C59",
   "status": "partial",
   "theorems": [
    "Shellfish.IdMode.C59_overlap_partial",
    "Shellfish.IdMode.C59_neighbor_partial",
    "Shellfish.IdMode.C59_shells_false"
   ],
   "note": "Positions in the box and radii small compared to the box (outside of that the search itself is wrong, C23); exact on every catalogue with distinct ids. C59_shells_false: the documented overlap of two shells is not what is tested."
  },
  {
   "property": "C60",
   "status": "proved",
   "theorems": [
    "Shellfish.Io.C60_bolshoi_read",
    "Shellfish.Io.C60_bolshoiP_read",
    "Shellfish.Io.C60_bolshoi_header",
    "Shellfish.Io.C60_header_layout",
    "Shellfish.Io.C60_bolshoi_new",
    "Shellfish.Io.C60_bolshoi_in_order"
   ],
   "note": "Whole Read of Bolshoi and BolshoiP files (the particles of the file's cell, in file order, with units, masses and ids) and ReadHeader, floats as elements of an ordered field (no rounding). Blocks that overrun the announced number of particles are outside of the model."
  },
  {
   "property": "C61",
   "status": "partial",
   "theorems": [
    "Shellfish.Io.C61_bolshoiP",
    "Shellfish.Io.C61_exactly_once_partial",
    "Shellfish.Io.C61_origin_false"
   ],
   "note": "Exact arithmetic; C61_bolshoiP: the reads of all files of a snapshot give every particle of (0, L]^3 exactly once. Missing: rounding; false for coordinate 0 (stored 1), see C61_origin_false."
  },
  {
   "property": "C62",
   "status": "partial",
   "theorems": [
    "Shellfish.Io.C62_gadget2_partial",
    "Shellfish.Io.C62_bolshoi_partial",
    "Shellfish.Io.C62_lgadget2_partial",
    "Shellfish.Io.C62_lgadget2_false",
    "Shellfish.Io.C62_gotetra_missing_false"
   ],
   "note": "every truncation of Gadget-2 and Bolshoi files panics; LGadget-2 files truncated in the ids and missing gotetra files are read silently with stale data"
  },
  {
   "property": "C63",
   "status": "partial",
   "theorems": [
    "Shellfish.Geom.C63_on_tetra_partial",
    "Shellfish.Geom.C63_complete",
    "Shellfish.Geom.C63_coplanar_false",
    "Shellfish.Geom.C63_oriented"
   ],
   "note": "Completeness (C63_complete, C63_oriented) is full for rays through the interior. Soundness excludes rays in the plane of a face, where the code divides 0 by 0 (C63_coplanar_false). Real arithmetic."
  },
  {
   "property": "C64",
   "status": "partial",
   "theorems": [
    "Shellfish.Geom.C64_point",
    "Shellfish.Geom.C64_spheres",
    "Shellfish.Geom.C64_contain",
    "Shellfish.Geom.C64_contain_complete",
    "Shellfish.Geom.C64_bounding",
    "Shellfish.Geom.C64_tetra_contain",
    "Shellfish.Geom.C64_tetra_partial",
    "Shellfish.Geom.C64_tetra_false",
    "Shellfish.Geom.C64_volume",
    "Shellfish.Geom.C64_orient",
    "Shellfish.Geom.C64_segment_partial",
    "Shellfish.Geom.C64_segment_false"
   ],
   "note": "Exact except TetraIntersect, which only tests vertices (C64_tetra_false), and LineSegmentIntersect, whose factor 2 applies to the first term only (C64_segment_false); both partial theorems are proved."
  },
  {
   "property": "C65",
   "status": "proved",
   "theorems": [
    "Shellfish.Interp.C65_bicubic_history",
    "Shellfish.Interp.C65_bicubic_grid",
    "Shellfish.Interp.C65_recovered_panic_false",
    "Shellfish.Interp.C65_tricubic_history",
    "Shellfish.Interp.C65_tricubic_grid",
    "Shellfish.Interp.C65_uniform_bicubic",
    "Shellfish.Interp.C65_uniform_tricubic"
   ],
   "note": "History independence and grid values for all call sequences without panics; C65_recovered_panic_false shows the stale state after a recovered panic."
  },
  {
   "property": "C66",
   "status": "partial",
   "theorems": [
    "Shellfish.Smooth.C66_savgol",
    "Shellfish.Smooth.C66_first_derivative",
    "Shellfish.Smooth.C66_derivative_partial",
    "Shellfish.Smooth.C66_least_squares",
    "Shellfish.Smooth.C66_convolve",
    "Shellfish.Smooth.C66_second_derivative_false",
    "Shellfish.Smooth.C66_short_target"
   ],
   "note": "smoothing and first derivative kernels for all orders and widths, all derivatives up to order 3; false for the second derivative with order 4 (C66_second_derivative_false)"
  },
  {
   "property": "C67",
   "status": "partial",
   "theorems": [
    "Shellfish.Smooth.C67_power_law",
    "Shellfish.Smooth.C67_history_false",
    "Shellfish.Smooth.C67_short",
    "Shellfish.Smooth.C67_other_window"
   ],
   "note": "first use of a window; later calls use the stale kernel (C67_history_false)"
  },
  {
   "property": "C68",
   "status": "proved",
   "theorems": [
    "Shellfish.Cmd.C68_transpose",
    "Shellfish.Cmd.C68_involution",
    "Shellfish.Cmd.C68_panic"
   ],
   "note": "Panics are modelled."
  },
  {
   "property": "C69",
   "status": "partial",
   "theorems": [
    "Shellfish.Memo.C69_listed",
    "Shellfish.Memo.C69_generated",
    "Shellfish.Memo.C69_unknown",
    "Shellfish.Memo.C69_unknown_false",
    "Shellfish.Memo.C69_radius_value"
   ],
   "note": "Listed values, generated radii and unknown names proved for all configurations with distinct names; GetColumn of an unknown name returns column 0 (C69_unknown_false)."
  },
  {
   "property": "C70",
   "status": "partial",
   "theorems": [
    "Shellfish.Modes.C70_shell",
    "Shellfish.Modes.C70_id",
    "Shellfish.Modes.C70_stats",
    "Shellfish.Modes.C70_prof",
    "Shellfish.Modes.C70_phase",
    "Shellfish.Modes.C70_potential",
    "Shellfish.Modes.C70_check",
    "Shellfish.Modes.C70_unreadable",
    "Shellfish.Modes.C70_unchecked_false",
    "Shellfish.Modes.C70_window_false",
    "Shellfish.Modes.C70_masses_false",
    "Shellfish.Modes.C70_bins_false",
    "Shellfish.Modes.C70_nan_false"
   ],
   "note": "Exact acceptance conditions for shell, id, stats, prof, phase, potential and check, for every file and flag list, in terms of the meaning of files and flags. False: nothing is checked without file and flags, even smoothing windows, M200mMin > M200mMax, RMinMult > RMaxMult or no bins in prof, NaN."
  },
  {
   "property": "C71",
   "status": "partial",
   "theorems": [
    "Shellfish.Modes.C71_accepted_iff",
    "Shellfish.Modes.C71_settings",
    "Shellfish.Modes.C71_documented_partial",
    "Shellfish.Modes.C71_halos_unused",
    "Shellfish.Modes.C71_future_false",
    "Shellfish.Modes.C71_nil_false",
    "Shellfish.Modes.C71_tree_false",
    "Shellfish.Modes.C71_tree_unset_false",
    "Shellfish.Modes.C71_logging_false"
   ],
   "note": "Exact acceptance condition for every file and directory state (C71_accepted_iff); it implies the documented one under two conditions (C71_documented_partial). False: versions 2.x accepted, NilSnapOmegaL unset masks the later checks, TreeDir required with TreeType nil and not required with consistent-trees when HaloType is nil, Logging = debugging refused."
  },
  {
   "property": "C72",
   "status": "partial",
   "theorems": [
    "Shellfish.Analyze.C72_volume",
    "Shellfish.Analyze.C72_sphere",
    "Shellfish.Analyze.C72_monotone",
    "Shellfish.Analyze.C72_scaling",
    "Shellfish.Analyze.C72_range_partial",
    "Shellfish.Analyze.C72_range_false",
    "Shellfish.Analyze.C72_difference_partial",
    "Shellfish.Analyze.C72_difference_false",
    "Shellfish.Analyze.C72_max_difference",
    "Shellfish.Analyze.C72_contains",
    "Shellfish.Analyze.C72_cube",
    "Shellfish.Analyze.C72_area",
    "Shellfish.Analyze.C72_median_partial",
    "Shellfish.Analyze.C72_median_between",
    "Shellfish.Analyze.C72_histogram",
    "Shellfish.Analyze.C72_histogram_normed",
    "Shellfish.Analyze.C72_sphere_area"
   ],
   "note": "Proved for all shells and draws: bounds, exactness for spheres, monotonicity, scaling, cube volume, containment, histogram density and norm, maximal difference over the samples. False of the code: RadialRange only covers the sampled directions (C72_range_false), DiffVolume is too small by a factor between 3 and 4 (C72_difference_partial, _false), the median for odd numbers of samples is one rank too high."
  },
  {
   "property": "C73",
   "status": "partial",
   "theorems": [
    "Shellfish.Analyze.C73_counts",
    "Shellfish.Analyze.C73_fraction_partial",
    "Shellfish.Analyze.C73_beyond_false",
    "Shellfish.Analyze.C73_below_false"
   ],
   "note": "Proved exactly what the profile contains (C73_counts) and the property for shells inside of the range (C73_fraction_partial); false of the code when the shell leaves the range (C73_beyond_false, C73_below_false)."
  },
  {
   "property": "C74",
   "status": "partial",
   "theorems": [
    "Shellfish.Analyze.C74_inertia",
    "Shellfish.Analyze.C74_trisort_partial",
    "Shellfish.Analyze.C74_trisort_false",
    "Shellfish.Analyze.C74_lengths_partial",
    "Shellfish.Analyze.C74_direction_partial",
    "Shellfish.Analyze.C74_direction_false",
    "Shellfish.Analyze.C74_extent"
   ],
   "note": "Inertia tensor, sorting (up to an exact tie) and lengths proved; the direction is right only when the longest axis is eigenvector 0 and perpendicular to the right one otherwise (C74_direction_false). The eigenvalue decomposition itself is gonum's and an argument."
  },
  {
   "property": "C75",
   "status": "partial",
   "theorems": [
    "Shellfish.Analyze.C75_polynomial",
    "Shellfish.Analyze.C75_short",
    "Shellfish.Analyze.C75_periodic",
    "Shellfish.Analyze.C75_least_squares",
    "Shellfish.Analyze.C75_recovers",
    "Shellfish.Analyze.C75_determined",
    "Shellfish.Analyze.C75_few_points",
    "Shellfish.Analyze.C75_dependent",
    "Shellfish.Analyze.C75_singular_false",
    "Shellfish.Analyze.C75_no_points",
    "Shellfish.Analyze.C75_axis_false",
    "Shellfish.Analyze.C75_order",
    "Shellfish.Analyze.C75_fit_order",
    "Shellfish.Analyze.C75_volume_fit"
   ],
   "note": "Evaluation, least squares, exact recovery, orders and existence of determining points for every order are proved (gonum's inverse of a non-singular matrix is a hypothesis). False of the code: singular systems (too few points; three powers of every coordinate) are not reported (C75_few_points, C75_dependent, C75_singular_false), a point on the z axis makes all coefficients NaN (C75_axis_false)."
  },
  {
   "property": "C76",
   "status": "partial",
   "theorems": [
    "Shellfish.Kde.C76_kde",
    "Shellfish.Kde.C76_bins",
    "Shellfish.Kde.C76_bins_panic",
    "Shellfish.Kde.C76_maxes",
    "Shellfish.Kde.C76_tree",
    "Shellfish.Kde.C76_anchors",
    "Shellfish.Kde.C76_never_false",
    "Shellfish.Kde.C76_filter",
    "Shellfish.Kde.C76_filter_false",
    "Shellfish.Kde.C76_points",
    "Shellfish.Kde.C76_sublist",
    "Shellfish.Kde.C76_ok_false"
   ],
   "note": "Density estimate, bins, maxima, connection rule, anchors and the filter are proved for all points. False of the code: points are kept within dr/2, not dr (C76_filter_false); ok is never false and rings without a candidate or without an interior maximum panic (C76_never_false, C76_ok_false, C76_tree)."
  },
  {
   "property": "C77",
   "status": "proved",
   "theorems": [
    "Shellfish.Kde.C77_clear",
    "Shellfish.Kde.C77_floor",
    "Shellfish.Kde.C77_splashback",
    "Shellfish.Kde.C77_volume",
    "Shellfish.Kde.C77_okCoords",
    "Shellfish.Kde.C77_usable",
    "Shellfish.Kde.C77_history",
    "Shellfish.Kde.C77_coeffs"
   ],
   "note": "Every line of sight separately, the plane and volume positions agree, history of the buffers is irrelevant."
  },
  {
   "property": "C78",
   "status": "partial",
   "theorems": [
    "Shellfish.Stats.C78_one_file",
    "Shellfish.Stats.C78_one_file_ids",
    "Shellfish.Stats.C78_columns",
    "Shellfish.Stats.C78_test_partial",
    "Shellfish.Stats.C78_mass_partial",
    "Shellfish.Stats.C78_ids_partial",
    "Shellfish.Stats.C78_missed_false",
    "Shellfish.Stats.C78_first_row_false",
    "Shellfish.Stats.C78_range_false",
    "Shellfish.Stats.C78_wrap_false",
    "Shellfish.Stats.C78_width_false",
    "Shellfish.Stats.C78_rsp_false"
   ],
   "note": "Exact characterisation of the columns for every schedule (C78_columns); correct masses and ids under the stated conditions; witnesses for the unread file, the sampled range, the half-box wrap, the squared lower limit and the exponent of R_sp."
  },
  {
   "property": "C79",
   "status": "partial",
   "theorems": [
    "Shellfish.Potential.C79_insert",
    "Shellfish.Potential.C79_maps",
    "Shellfish.Potential.C79_potential_partial",
    "Shellfish.Potential.C79_coordinates_false",
    "Shellfish.Potential.C79_mirror_false",
    "Shellfish.Potential.C79_edge_false",
    "Shellfish.Potential.C79_default_false"
   ],
   "note": "Exact maps for every interleaving (C79_insert, C79_maps) and the potential of all particles in range under the stated conditions; the coordinates of R are wrong for every grid (C79_coordinates_false)."
  },
  {
   "property": "C80",
   "status": "partial",
   "theorems": [
    "Shellfish.ShellRun.C80_lines_partial",
    "Shellfish.ShellRun.C80_rows_partial",
    "Shellfish.ShellRun.C80_threads",
    "Shellfish.ShellRun.C80_independent_partial",
    "Shellfish.ShellRun.C80_norms",
    "Shellfish.ShellRun.C80_norms_seed",
    "Shellfish.ShellRun.C80_cosmology_false",
    "Shellfish.ShellRun.C80_radius_false",
    "Shellfish.ShellRun.C80_marker_false"
   ],
   "note": "C80_rows_partial and C80_independent_partial: for rows with a positive radius, a snapshot other than -1, halo + kernel at most half a box; the floor density depends on the first snapshot (C80_cosmology_false). Witnesses for the failing rest: C80_radius_false, C80_marker_false."
  },
  {
   "property": "C81",
   "status": "partial",
   "theorems": [
    "Shellfish.Profiles.C81_percentile",
    "Shellfish.Profiles.C81_ordered",
    "Shellfish.Profiles.C81_half_partial",
    "Shellfish.Profiles.C81_reversed_false",
    "Shellfish.Profiles.C81_antitone",
    "Shellfish.Profiles.C81_median_partial",
    "Shellfish.Profiles.C81_mean",
    "Shellfish.Profiles.C81_transpose",
    "Shellfish.Profiles.C81_ragged_false",
    "Shellfish.Profiles.C81_run"
   ],
   "note": "C81_percentile: exact rank for all percentiles; it is the median for 50 and an even number of lines (C81_half_partial, C81_median_partial); C81_reversed_false: other percentiles are counted from the largest; C81_ragged_false: a blank row panics."
  },
  {
   "property": "C82",
   "status": "partial",
   "theorems": [
    "Shellfish.Profiles.C82_profile_partial",
    "Shellfish.Profiles.C82_reversed_false",
    "Shellfish.Profiles.C82_bootstrap",
    "Shellfish.Profiles.C82_bounded",
    "Shellfish.Profiles.C82_one_sample",
    "Shellfish.Profiles.C82_errors",
    "Shellfish.Profiles.C82_samples_false",
    "Shellfish.Profiles.C82_fractions_partial"
   ],
   "note": "C82_profile_partial: exact rank over the pixels (pixel boundary of C39 left out); C82_reversed_false; C82_samples_false: NaN for Samples = 0; C82_fractions_partial: shells within the radii of the profile. In floating point the variance may be a tiny negative number (NaN); the model is over the real numbers."
  },
  {
   "property": "C83",
   "status": "partial",
   "theorems": [
    "Shellfish.Modes.C83_default_partial",
    "Shellfish.Modes.C83_radius_false"
   ],
   "note": "All documented defaults hold for every file and flag list, except ExclusionRadiusMult of id: documented default 0.8, actual 1 (C83_radius_false)."
  },
  {
   "property": "C84",
   "status": "partial",
   "theorems": [
    "Shellfish.Check.C84_failures_partial",
    "Shellfish.Check.C84_passed_partial",
    "Shellfish.Check.C84_other_files_false",
    "Shellfish.Check.C84_zero_false",
    "Shellfish.Check.C84_edge_false",
    "Shellfish.Check.C84_far_false"
   ],
   "note": "Exact list of failed checks for all simulations in which no particle of the halo's snapshot is wrapped; false at the box edge (C84_edge_false), for particles half a box away (C84_far_false), for masses outside the first file (C84_other_files_false) and for stated zeros (C84_zero_false)."
  },
  {
   "property": "C85",
   "status": "partial",
   "theorems": [
    "Shellfish.Main.C85_reported",
    "Shellfish.Main.C85_report_partial",
    "Shellfish.Main.C85_pipe_partial",
    "Shellfish.Main.C85_success",
    "Shellfish.Main.C85_feeds",
    "Shellfish.Main.C85_panic_false",
    "Shellfish.Main.C85_no_mode_false",
    "Shellfish.Main.C85_blank_false",
    "Shellfish.Main.C85_tree_type_false",
    "Shellfish.Main.C85_help_false",
    "Shellfish.Main.C85_unknown",
    "Shellfish.Main.C85_success_source",
    "Shellfish.Main.C85_unreadable"
   ],
   "note": "Proved for pipes of any length for error exits; false for panics (later commands end with status 0), for a command without arguments, for global configurations that print an empty line; TreeType nil is not refused; unknown help targets end with status 0."
  },
  {
   "property": "C86",
   "status": "partial",
   "theorems": [
    "Shellfish.Geom.C86_no_panic",
    "Shellfish.Geom.C86_corners",
    "Shellfish.Geom.C86_section",
    "Shellfish.Geom.C86_sides",
    "Shellfish.Geom.C86_ok_partial",
    "Shellfish.Geom.C86_direction_partial",
    "Shellfish.Geom.C86_lines_partial",
    "Shellfish.Geom.C86_angle_range",
    "Shellfish.Geom.C86_range_tight_partial",
    "Shellfish.Geom.C86_radii_partial",
    "Shellfish.Geom.C86_touch_false",
    "Shellfish.Geom.C86_small_false",
    "Shellfish.Geom.C86_range_false",
    "Shellfish.Geom.C86_corner_angle_false",
    "Shellfish.Geom.C86_radius_false"
   ],
   "note": "Corners, cross-section and sides exact for every slice made; slices are made when corners stay 1e-5 apart (C86_ok_partial); ray query and ranges under stated hypotheses; witnesses for touching planes, tiny tetrahedra, rays through corners, equal first angles and minimal radius on a side."
  },
  {
   "property": "C87",
   "status": "partial",
   "theorems": [
    "Shellfish.Geom.C87_refused",
    "Shellfish.Geom.C87_through",
    "Shellfish.Geom.C87_exact",
    "Shellfish.Geom.C87_solve",
    "Shellfish.Geom.C87_solved_partial",
    "Shellfish.Geom.C87_none_iff",
    "Shellfish.Geom.C87_vertical_false",
    "Shellfish.Geom.C87_stale_false",
    "Shellfish.Geom.C87_ray_partial",
    "Shellfish.Geom.C87_ray_false"
   ],
   "note": "Lines exact up to the 1e-5 tolerance; Solve sound; witnesses for vertical against near-horizontal lines reported parallel, stale slopes of reused vertical lines, and InitFromPlucker off the origin."
  },
  {
   "property": "C88",
   "status": "partial",
   "theorems": [
    "Shellfish.Platonic.C88_sides",
    "Shellfish.Platonic.C88_faces",
    "Shellfish.Platonic.C88_unique_partial",
    "Shellfish.Platonic.C88_unique_false",
    "Shellfish.Platonic.C88_unique_count"
   ],
   "note": "Everything is proved for all five solids except UniqueNormals of the icosahedron, which returns two opposite normals and misses a plane (C88_unique_false)."
  },
  {
   "property": "C89",
   "status": "proved",
   "theorems": [
    "Shellfish.Analyze.C89_volume",
    "Shellfish.Analyze.C89_mean_radius",
    "Shellfish.Analyze.C89_cube",
    "Shellfish.Analyze.C89_penna"
   ],
   "note": "Exact real arithmetic; random numbers are independent uniform draws (the generator itself is not modelled here)."
  },
  {
   "property": "C90",
   "status": "partial",
   "theorems": [
    "Shellfish.ShellFile.C90_checked",
    "Shellfish.ShellFile.C90_written",
    "Shellfish.ShellFile.C90_stats_partial",
    "Shellfish.ShellFile.C90_dropped_false",
    "Shellfish.ShellFile.C90_skipped_false",
    "Shellfish.ShellFile.C90_lost"
   ],
   "note": "The writer's own check is sound (C90_checked) and on a disk that keeps what is written the file holds the data (C90_written, C90_stats_partial). The full claim is false as coded: the error of writeShellParticles is dropped (cmd/stats.go:345), and without masses no file is written (C90_dropped_false, C90_skipped_false)."
  },
  {
   "property": "C91",
   "status": "partial",
   "theorems": [
    "Shellfish.Artio.C91_names",
    "Shellfish.Artio.C91_read_partial",
    "Shellfish.Artio.C91_exactly_once_partial",
    "Shellfish.Artio.C91_min_mass",
    "Shellfish.Artio.C91_header_partial",
    "Shellfish.Artio.C91_other_fileset_false",
    "Shellfish.Artio.C91_no_species_false",
    "Shellfish.Artio.C91_error_dropped_false"
   ],
   "note": "Proved for blocks of the fileset the buffer was made for, after every history of calls. The claim for other filesets is false (C91_other_fileset_false: the fileset of the first name is used for every read), as are the error claims (C91_no_species_false, C91_error_dropped_false). go-artio itself is modelled by what its calls deliver."
  },
  {
   "property": "C92",
   "status": "partial",
   "theorems": [
    "Shellfish.Io.C92_lgadget2",
    "Shellfish.Io.C92_lgadget2_total",
    "Shellfish.Io.C92_gadget2",
    "Shellfish.Io.C92_gotetra",
    "Shellfish.Io.C92_bolshoi_min",
    "Shellfish.Io.C92_bolshoi_mass",
    "Shellfish.Io.C92_bolshoiP_min_false",
    "Shellfish.Io.C92_bolshoi_count_false",
    "Shellfish.Io.C92_total_false",
    "Shellfish.Io.C92_gadget2_min_false"
   ],
   "note": "Exact arithmetic (no rounding). LGadget-2, Gadget-2 (little endian), gotetra: whole Read and ReadHeader, totals. Missing/false: Gadget-2 MinMass is 0; BolshoiP MinMass differs from the masses; Bolshoi headers count dropped particles; gotetra TotalParticles is -1."
  },
  {
   "property": "C93",
   "status": "proved",
   "theorems": [
    "Shellfish.ShellRun.C93_uniform",
    "Shellfish.ShellRun.C93_ends",
    "Shellfish.ShellRun.C93_isotropic"
   ],
   "note": "The generator is an idealised stream of independent uniform triples (hypothesis Draws); the loop is the same definition normLoopOn that normVecs uses with the Xorshift generator. Vectors are real numbers, not float32."
  },
  {
   "property": "C94",
   "status": "partial",
   "theorems": [
    "Shellfish.MemoRuns.C94_safe",
    "Shellfish.MemoRuns.C94_reused",
    "Shellfish.MemoRuns.C94_refused",
    "Shellfish.MemoRuns.C94_again_partial",
    "Shellfish.MemoRuns.C94_interrupted_iff",
    "Shellfish.MemoRuns.C94_stuck_false",
    "Shellfish.MemoRuns.C94_race_false",
    "Shellfish.MemoRuns.C94_sequential_partial"
   ],
   "note": "Proved over all histories of sequential runs with arbitrary crash points: one set of settings per directory, reuse only with own settings, refusals change nothing. The last clause and the concurrent clause are false of the code: an interruption during the copy of memo.config disables the directory for every later run (C94_stuck_false), and two runs started together with different settings are both accepted (C94_race_false); the exact conditions are C94_interrupted_iff, C94_again_partial, C94_sequential_partial."
  },
  {
   "property": "C95",
   "status": "partial",
   "theorems": [
    "Shellfish.Round.C95_rounding",
    "Shellfish.Round.C95_grid_partial",
    "Shellfish.Round.C95_grid_bound",
    "Shellfish.Round.C95_grid_false",
    "Shellfish.Round.C95_ring_partial",
    "Shellfish.Round.C95_ring_false",
    "Shellfish.Round.C95_prof",
    "Shellfish.Round.C95_phase",
    "Shellfish.Round.C95_theta",
    "Shellfish.Round.C95_search_partial",
    "Shellfish.Round.C95_search_false",
    "Shellfish.Round.C95_uniform_range",
    "Shellfish.Round.C95_uniform_partial",
    "Shellfish.Round.C95_uniformInt_partial",
    "Shellfish.Round.C95_uniform_false"
   ],
   "note": "False: a 150 cell grid (id mode) panics for positions next to the box edge (C95_grid_false), a plateau starting just below the outer radius lands on the next line or panics (C95_ring_false), an interpolator on a fine grid far from 0 gets an index outside its table (C95_search_false), Uniform and UniformInt can return their upper bound (C95_uniform_false). Proved: power of two grids, at most one cell too far in general, rings for ends clearly away from the outer radius, prof, phase and theta bins without restriction, grids starting at 0, ranges that are not tiny."
  },
  {
   "property": "C96",
   "status": "proved",
   "theorems": [
    "Shellfish.Pipe.C96_shell",
    "Shellfish.Pipe.C96_stats",
    "Shellfish.Pipe.C96_prof_or",
    "Shellfish.Pipe.C96_prof",
    "Shellfish.Pipe.C96_angular",
    "Shellfish.Pipe.C96_phase",
    "Shellfish.Pipe.C96_potential",
    "Shellfish.Pipe.C96_coord",
    "Shellfish.Pipe.C96_pipe_example",
    "Shellfish.Pipe.C96_tree",
    "Shellfish.Pipe.C96_id",
    "Shellfish.Pipe.C96_pipe"
   ],
   "note": ""
  },
  {
   "property": "C97",
   "status": "partial",
   "theorems": [
    "Shellfish.Pipe.C97_shell",
    "Shellfish.Pipe.C97_stats",
    "Shellfish.Pipe.C97_prof",
    "Shellfish.Pipe.C97_angular",
    "Shellfish.Pipe.C97_potential",
    "Shellfish.Pipe.C97_phase_partial",
    "Shellfish.Pipe.C97_phase_false",
    "Shellfish.Pipe.C97_phase_example"
   ],
   "note": "True of shell, stats, prof, the angular fraction and potential; false of phase, whose header swaps the number of radius and velocity columns whenever RBins and VBins differ (C97_phase_false, for all differing bin counts; C97_phase_partial when they agree)."
  },
  {
   "property": "C98",
   "status": "partial",
   "theorems": [
    "Shellfish.Pipe.C98_order_false",
    "Shellfish.Pipe.C98_empty_stats_false",
    "Shellfish.Pipe.C98_order_larger",
    "Shellfish.Pipe.C98_shell_stats",
    "Shellfish.Pipe.C98_shell_prof",
    "Shellfish.Pipe.C98_prof_order_larger"
   ],
   "note": "Proved for Order of stats or prof ≤ Order of shell what they compute with, and that a larger Order is refused. False: a smaller Order is accepted silently and denotes another shell (C98_order_false); an empty catalog makes stats panic instead of printing its message (C98_empty_stats_false)."
  },
  {
   "property": "C99",
   "status": "proved",
   "theorems": [
    "Shellfish.ShellRun.C99_alone",
    "Shellfish.ShellRun.C99_rows",
    "Shellfish.ShellRun.C99_threads",
    "Shellfish.ShellRun.C99_order"
   ],
   "note": "The kernels are cached by window width only (los/analyze/smooth.go), which is harmless here because all halos of a run share log(rMax/rMin)/bins (see C67_history_false for histories where it is not). Arithmetic is real; the matrix inverse is a parameter."
  },
  {
   "property": "C100",
   "status": "partial",
   "theorems": [
    "Shellfish.Threads.C100_shell",
    "Shellfish.Threads.C100_prof",
    "Shellfish.Threads.C100_stats_partial",
    "Shellfish.Threads.C100_stats_false"
   ],
   "note": "False of the first parallel call of a stats run (C100_stats_false): it starts as many threads as the runtime was set to before, because the result of runtime.GOMAXPROCS is taken for the new setting. True of every later call, and of the shell, prof and potential modes."
  },
  {
   "property": "C101",
   "status": "partial",
   "theorems": [
    "Shellfish.Par.C101_own_values",
    "Shellfish.Par.C101_joined",
    "Shellfish.Par.C101_collected",
    "Shellfish.Par.C101_two_partial",
    "Shellfish.Par.C101_exact_partial",
    "Shellfish.Par.C101_close",
    "Shellfish.Par.C101_masses_false",
    "Shellfish.Par.C101_ids_false",
    "Shellfish.Par.C101_threads_false"
   ],
   "note": "Proved for the shell, prof and potential modes (C101_own_values, C101_joined: any arithmetic, fixed number of threads). For the stats mode C101_collected gives exactly the possible results: those of all orders of the workers. They agree for up to two threads and for masses that are multiples of one power of two (C101_two_partial, C101_exact_partial), and always up to rounding (C101_close); false in general (C101_masses_false, C101_ids_false; C101_threads_false for different numbers of threads)."
  },
  {
   "property": "C102",
   "status": "partial",
   "theorems": [
    "Shellfish.Round.C102_box_partial",
    "Shellfish.Round.C102_drift_false",
    "Shellfish.Round.C102_missed_false"
   ],
   "note": "false of the code: in float32 small steps of the origin are lost when they are added to the width (C102_drift_false, C102_missed_false); proved: containment up to n 2^-22 box widths"
  },
  {
   "property": "C103",
   "status": "partial",
   "theorems": [
    "Shellfish.Round.C103_exact",
    "Shellfish.Round.C103_rows_partial",
    "Shellfish.Round.C103_large_false",
    "Shellfish.Round.C103_hidden_false"
   ],
   "note": "false of the code: ids are read as float64, so that odd ids above 2^53 select no row (C103_large_false) or hide another halo (C103_hidden_false); proved for ids up to 2^53"
  },
  {
   "property": "C104",
   "status": "partial",
   "theorems": [
    "Shellfish.Round.C104_inner_partial",
    "Shellfish.Round.C104_grid_partial",
    "Shellfish.Round.C104_lost_false",
    "Shellfish.Round.C104_twice_false"
   ],
   "note": "false of the code: with 9 cells across 250 Mpc a float32 position is in no file (C104_lost_false), with 7 cells one is in two (C104_twice_false); proved away from the borders, and exactly if all multiples of the cell width are float32 numbers"
  },
  {
   "property": "C105",
   "status": "proved",
   "theorems": [
    "Shellfish.FloatText.C105_read",
    "Shellfish.FloatText.C105_error",
    "Shellfish.FloatText.C105_stable",
    "Shellfish.FloatText.C105_catalog"
   ],
   "note": "Go's fmt.Sprintf(\"%.6g\") and strconv.ParseFloat are modelled on rational numbers from the source of package strconv: no infinities, NaN, subnormal numbers or signed zeros."
  },
  {
   "property": "C106",
   "status": "partial",
   "theorems": [
    "Shellfish.Share.C106_complete",
    "Shellfish.Share.C106_late_partial",
    "Shellfish.Share.C106_zero_headers_false",
    "Shellfish.Share.C106_no_halos_false",
    "Shellfish.Share.C106_pipe",
    "Shellfish.Share.C106_pipe_same",
    "Shellfish.Share.C106_pipe_ends",
    "Shellfish.Share.C106_pipe_cache"
   ],
   "note": "Proved for pipes (every schedule gives the outputs, the disk and the cache files of the commands run one after the other, and the pipe cannot get stuck) and for the final content of the cache file (complete once all commands are through). False for unrelated commands at the same time: one that finds the cache file while another is making it goes on with zero headers (C106_zero_headers_false) or with a catalogue without halos (C106_no_halos_false); what holds is C106_late_partial: a command that looks when nobody is making the file gets the whole content."
  },
  {
   "property": "C107",
   "status": "partial",
   "theorems": [
    "Shellfish.Sort.C107_keeps",
    "Shellfish.Sort.C107_sorted",
    "Shellfish.Sort.C107_member",
    "Shellfish.Sort.C107_rank",
    "Shellfish.Sort.C107_nan_false"
   ],
   "note": "Proved for every slice: no panic, the values are kept, order statistics are members; sorted and ranked by value when there is no NaN. The last sentence is false: two values on the two sides of a NaN stay in descending order and the largest value is not found (C107_nan_false)."
  },
  {
   "property": "C108",
   "status": "partial",
   "theorems": [
    "Shellfish.Round.C108_search_partial",
    "Shellfish.Round.C108_accuracy",
    "Shellfish.Round.C108_distances_partial",
    "Shellfish.Round.C108_radii",
    "Shellfish.Round.C108_radii_false",
    "Shellfish.Round.C108_tiny_false"
   ],
   "note": "Proved for catalogues in the box (clearly below its end, or a power of two of cells), radii that are zero or at least 2^-39 box widths and searches that do not reach around the box: the grid search equals the search without a grid (C108_search_partial), and the test is the distance test up to 2^-48 box widths (C108_accuracy, C108_distances_partial). False otherwise: halos just below the end of the box (C95_grid_false), a tiny radius at the periodic boundary loses a halo at the same place (C108_tiny_false), the caller's radii come back changed in the last bit (C108_radii_false, bounded by C108_radii)."
  },
  {
   "property": "C109",
   "status": "partial",
   "theorems": [
    "Shellfish.Sobol.C109_square",
    "Shellfish.Sobol.C109_first_and_other",
    "Shellfish.Sobol.C109_cube",
    "Shellfish.Sobol.C109_empty_boxes_false"
   ],
   "note": "Exact for the first two coordinates, for the first and any other, and for the first three. False of the third and fourth, and of the fifth and sixth coordinates: C109_empty_boxes_false shows boxes of area 1/16 that no point of the whole sequence ever enters (the recurrence reads index j-1 for every term)."
  },
  {
   "property": "C110",
   "status": "partial",
   "theorems": [
    "Shellfish.Analyze.C110_history",
    "Shellfish.Analyze.C110_range_partial",
    "Shellfish.Analyze.C110_oblate_false",
    "Shellfish.Analyze.C110_nodes_partial",
    "Shellfish.Analyze.C110_shapes",
    "Shellfish.Analyze.C110_flipped",
    "Shellfish.Analyze.C110_sphere_false",
    "Shellfish.Analyze.C110_elongated_false"
   ],
   "note": "False of the code: the table for the longest axis is upside down (C110_flipped), so that a sphere of radius R is given the axes 1.1153 R, 1.1164 R, 1.1073 R (C110_sphere_false); shells with an axis ratio below 0.2069 make Axes, and with it the stats mode, panic (C110_elongated_false), and so do flat shells with an exact tie (C110_oblate_false). Proved: independence of history, the exact set of shapes that panic, the corrections at the nodes of the tables."
  },
  {
   "property": "C111",
   "status": "proved",
   "theorems": [
    "Shellfish.Analyze.C111_histogram",
    "Shellfish.Analyze.C111_fraction",
    "Shellfish.Analyze.C111_median",
    "Shellfish.Analyze.C111_range",
    "Shellfish.Analyze.C111_max_difference"
   ],
   "note": "Real arithmetic and independent uniform draws are assumed, as in C89."
  },
  {
   "property": "C112",
   "status": "partial",
   "theorems": [
    "Shellfish.Round.C112_nan",
    "Shellfish.Round.C112_end_partial",
    "Shellfish.Round.C112_accuracy_partial",
    "Shellfish.Round.C112_endless",
    "Shellfish.Round.C112_line_false",
    "Shellfish.Round.C112_end_false"
   ],
   "note": "False of the code: when the rounded square of the impact parameter is larger than the rounded squared distance of the center, the far end of the line is NaN, both comparisons of Insert are false, and the density of the particle is added to all bins up to rMax (C112_nan, C112_endless, C112_line_false for every such sphere, C112_end_false for a sphere of radius 2 around (1,-1,0) and the line at 45 degrees). Proved for all other lines: the far end is a non-negative number, at most the distance plus the radius, and exact up to 2^-25 of them (C112_end_partial, C112_accuracy_partial)."
  },
  {
   "property": "C113",
   "status": "partial",
   "theorems": [
    "Shellfish.Round.C113_nan_disk",
    "Shellfish.Round.C113_range_partial",
    "Shellfish.Round.C113_nan_false",
    "Shellfish.Round.C113_pole_false",
    "Shellfish.Round.C113_level_false"
   ],
   "note": "False of the code: the squared distance is rounded to float32, so that within 2^-12 of a pole dz/r can be larger than 1, Acos is NaN, the comparison theta > Pi/2 is false and the NaN becomes the smallest integer, whose arithmetic overflows to ring 1: the particle is counted in the first ring of the north, also when it is at the south pole (C113_nan_disk, C113_nan_false, C113_pole_false), and at MedianPixelLevel 1 the program panics; at level 24 the index in a ring rounds up to a full turn and the program panics (C113_level_false). Proved for levels 2 to 23 and all particles with a polar angle (C113_range_partial)."
  },
  {
   "property": "C114",
   "status": "partial",
   "theorems": [
    "Shellfish.Env.C114_distinct_partial",
    "Shellfish.Env.C114_adjacent_false",
    "Shellfish.Env.C114_scale_false"
   ],
   "note": "False of the code: formats without separators such as s%d%d are accepted, and block 11 of snapshot 1 has the file of block 1 of snapshot 11 (C114_adjacent_false); with scale factors instead of snapshot numbers, equal lines of the scale factor file share all files (C114_scale_false). Proved for formats that name the snapshot by number and have after every argument but a last one a character that occurs in no argument (C114_distinct_partial), which includes the format of the example configuration."
  },
  {
   "property": "C115",
   "status": "partial",
   "theorems": [
    "Shellfish.Catalog.C115_cut",
    "Shellfish.Catalog.C115_short_partial",
    "Shellfish.Catalog.C115_inner_partial",
    "Shellfish.Catalog.C115_broken_partial",
    "Shellfish.Catalog.C115_noticed_partial",
    "Shellfish.Catalog.C115_short_false",
    "Shellfish.Catalog.C115_comment_false",
    "Shellfish.Catalog.C115_unused_false"
   ],
   "note": "False as stated: the error of io.ReadAtLeast is dropped and a file shorter or longer than its reported size is read as another catalogue (C115_short_false, C115_comment_false, C115_unused_false). Proved: what can be returned then is the leading rows plus at most one cut row; with no cut column asked for, exactly leading rows; NUL padding is noticed when the last column is asked for and no comment is cut."
  },
  {
   "property": "C116",
   "status": "partial",
   "theorems": [
    "Shellfish.Round.C116_float64",
    "Shellfish.Round.C116_sine",
    "Shellfish.Round.C116_float32_partial",
    "Shellfish.Round.C116_normals",
    "Shellfish.Round.C116_axis_false"
   ],
   "note": "Proved for float64 points, the sine, and ring normals (all draws). False for float32 particle positions very near the axis (C116_axis_false): the quotient exceeds 1, the angle is NaN and the particle is not listed; proved for points at least a two-thousandth of their height from the axis."
  },
  {
   "property": "C117",
   "status": "partial",
   "theorems": [
    "Shellfish.Round.C117_nan",
    "Shellfish.Round.C117_accurate_partial",
    "Shellfish.Round.C117_equal_false"
   ],
   "note": "False when the resampled percentiles (nearly) agree: three equal samples of 0.1 give NaN (C117_equal_false). Proved: exact condition for NaN, and accuracy when the variance exceeds the rounding level."
  },
  {
   "property": "C118",
   "status": "partial",
   "theorems": [
    "Shellfish.Interp.C118_pointwise_partial",
    "Shellfish.Interp.C118_fresh",
    "Shellfish.Interp.C118_short",
    "Shellfish.Interp.C118_tables",
    "Shellfish.Interp.C118_made",
    "Shellfish.Interp.C118_spline_partial",
    "Shellfish.Interp.C118_shifted_false",
    "Shellfish.Interp.C118_table_false",
    "Shellfish.Interp.C118_ends_false"
   ],
   "note": "Proved for fresh output, disjoint output, and evaluation in place; tables not written to. False when the output slice overlaps the points with a shift (C118_shifted_false), is the table (C118_table_false), or when the values of a spline are overwritten (C118_ends_false)."
  },
  {
   "property": "C119",
   "status": "partial",
   "theorems": [
    "Shellfish.Round.C119_long_partial",
    "Shellfish.Round.C119_miss_partial",
    "Shellfish.Round.C119_safe",
    "Shellfish.Round.C119_center_false",
    "Shellfish.Round.C119_once_partial",
    "Shellfish.Round.C119_once_false",
    "Shellfish.Round.C119_insert_partial"
   ],
   "note": "C119_long_partial: chords longer than about 2^-19 of the scale are raised, with both ends accurate to a 2^-19 of the scale; C119_miss_partial, C119_insert_partial: lines that miss by that margin are untouched; C119_safe: no panic unless the projected centre is the ring's centre (C119_center_false); C119_once_partial for five or more lines, C119_once_false for one line. atan2, asin and sincos are parameters with errors up to 2^-50."
  },
  {
   "property": "C120",
   "status": "partial",
   "theorems": [
    "Shellfish.Rand.C120_next",
    "Shellfish.Rand.C120_batch",
    "Shellfish.Rand.C120_uniform_partial",
    "Shellfish.Rand.C120_axes",
    "Shellfish.Rand.C120_uniformAt",
    "Shellfish.Rand.C120_int_partial",
    "Shellfish.Rand.C120_taus_partial",
    "Shellfish.Rand.C120_taus_batch",
    "Shellfish.Rand.C120_taus_false",
    "Shellfish.Rand.C120_uniform_false",
    "Shellfish.Rand.C120_int_false"
   ],
   "note": "Proved for Xorshift: Next in [0,1), batches, Uniform in [low, high] and below high when |high| <= 2^19 (high-low), UniformInt for bounds up to 2^18. False in general: Uniform(2^53, 2^53+2) and UniformInt there can return the upper bound (C120_uniform_false, C120_int_false), and Tausworthe can return 1 by rounding (C120_taus_false); for it [0,1] is proved."
  },
  {
   "property": "C121",
   "status": "partial",
   "theorems": [
    "Shellfish.Round.C121_profile_partial",
    "Shellfish.Round.C121_threads_partial",
    "Shellfish.Round.C121_negative_false",
    "Shellfish.Round.C121_threads_false"
   ],
   "note": "Proved: no panic, result at least the default density and within (calls+bins+workers)/2^47 times the sum of the densities of the exact coverage, for every distribution over workers (C121_profile_partial, C121_threads_partial). Equality is false: a dense and a thin plateau leave a negative density behind (C121_negative_false), and one and two threads differ in the last bit (C121_threads_false). Missing: plateaus ending within 2^-45 of the outer radius, where the index can be out of range (C95_ring_false)."
  },
  {
   "property": "C122",
   "status": "partial",
   "theorems": [
    "Shellfish.Round.C122_selected_partial",
    "Shellfish.Round.C122_subset",
    "Shellfish.Round.C122_rounding_false",
    "Shellfish.Round.C122_drift_false"
   ],
   "note": "Proved with a margin of (n+1)/2^22 box widths for files of n particles (C122_selected_partial) and small or box-filling regions; nothing is invented or repeated (C122_subset). False without a margin (C122_rounding_false) and with small margins for large files: with 2^23 particles the region can lose 1/8 of a length unit of a box of 100 and the file is skipped although a particle is at half the halo's radius (C122_drift_false)."
  },
  {
   "property": "C123",
   "status": "proved",
   "theorems": [
    "Shellfish.Round.C123_linear",
    "Shellfish.Round.C123_bilinear",
    "Shellfish.Round.C123_knots_false"
   ],
   "note": "Full for the table searchers: C123_linear, C123_bilinear; C123_knots_false shows that the bound cannot be zero. Uniform grids: C95 (search) only."
  },
  {
   "property": "C124",
   "status": "proved",
   "theorems": [
    "Shellfish.Rand.C124_words",
    "Shellfish.Rand.C124_consecutive",
    "Shellfish.Rand.C124_uniform",
    "Shellfish.Rand.C124_repeats",
    "Shellfish.Rand.C124_seeds",
    "Shellfish.Rand.C124_uniform64",
    "Shellfish.Rand.C124_normals",
    "Shellfish.Rand.C124_centre",
    "Shellfish.Rand.C124_normals64"
   ],
   "note": "full period and exact equidistribution of the generator (exact and rounded numbers), one cycle for all seeds; termination, length and angles of the ring normals"
  },
  {
   "property": "C125",
   "status": "proved",
   "theorems": [
    "Shellfish.Round.C125_mass",
    "Shellfish.Round.C125_prof",
    "Shellfish.Round.C125_median",
    "Shellfish.Round.C125_phase",
    "Shellfish.Round.C125_speed"
   ],
   "note": "prof, median and phase binning with rounding; hypotheses ProfOk/PhaseGrid.Ok (limits within 2^±64, bins wider than 2^-20 in the logarithm, at most 2^40 bins); overflow and subnormal numbers are not modelled"
  },
  {
   "property": "C126",
   "status": "proved",
   "theorems": [
    "Shellfish.Round.C126_prof",
    "Shellfish.Round.C126_phase"
   ],
   "note": "densities, radii and velocities of the prof and phase modes with rounding; median and error profiles divide other sums by the same volumes and are not included; overflow and subnormal numbers are not modelled"
  },
  {
   "property": "C127",
   "status": "proved",
   "theorems": [
    "Shellfish.Finder.C127_inside",
    "Shellfish.Finder.C127_convert",
    "Shellfish.Finder.C127_visited",
    "Shellfish.Finder.C127_sphere",
    "Shellfish.Finder.C127_outside_false"
   ],
   "note": "For cells of the grid (C127_outside_false: numbers outside of the grid are not brought into it, which the English claim does not say). Exact arithmetic for the sphere."
  },
  {
   "property": "C128",
   "status": "proved",
   "theorems": [
    "Shellfish.Round.C128_radius",
    "Shellfish.Round.C128_contains",
    "Shellfish.Round.C128_centre",
    "Shellfish.Round.C128_order3",
    "Shellfish.Round.C128_pole_false"
   ],
   "note": "Functions of package math by their accuracy (hypothesis Accurate, met by cutMath). C128_pole_false shows that the margin near the poles cannot be reduced to machine precision."
  },
  {
   "property": "C129",
   "status": "proved",
   "theorems": [
    "Shellfish.Round.C129_range",
    "Shellfish.Round.C129_median",
    "Shellfish.Round.C129_mean",
    "Shellfish.Round.C129_volume"
   ],
   "note": "Functions of package math by their accuracy; rand.Float64 by its results. The median is the element of rank n/2, as in C02."
  },
  {
   "property": "C130",
   "status": "partial",
   "theorems": [
    "Shellfish.Round.C130_counted",
    "Shellfish.Round.C130_centre",
    "Shellfish.Round.C130_mass",
    "Shellfish.Round.C130_inside_partial",
    "Shellfish.Round.C130_width_partial",
    "Shellfish.Round.C130_axis_false",
    "Shellfish.Round.C130_negative_false"
   ],
   "note": "Proved: particles within half a box of the halo and farther from the shell than the margin are counted exactly if inside (C130_counted, C130_centre), the mass of a file for all schedules (C130_mass), the list of particles off the polar axis (C130_inside_partial, C130_width_partial).  False in the code: particles on the polar axis are missing from the list because the cosine exceeds 1 (C130_axis_false); a negative lower limit is squared (C130_negative_false); see also C78 for wrap and large widths."
  },
  {
   "property": "C131",
   "status": "proved",
   "theorems": [
    "Shellfish.Round.C131_bound",
    "Shellfish.Round.C131_contained",
    "Shellfish.Round.C131_profile"
   ],
   "note": "All three criteria and the whole profile. Hypotheses: no particle needs a periodic shift (the shift itself is wrong, C78), concentration at least 1, for the bound profile distance at least a 32nd of the scale radius, particles not within the stated margin of the criterion."
  },
  {
   "property": "C132",
   "status": "partial",
   "theorems": [
    "Shellfish.Round.C132_used",
    "Shellfish.Round.C132_potential_partial",
    "Shellfish.Round.C132_infinite_false"
   ],
   "note": "C132_used, C132_potential_partial: all maps, for particles clear of the limits and of the point of the cell. A particle at the point of a cell makes it infinite (C132_infinite_false). Overflow is not modelled."
  },
  {
   "property": "C133",
   "status": "partial",
   "theorems": [
    "Shellfish.Round.C133_phase_partial",
    "Shellfish.Round.C133_low_false"
   ],
   "note": "Proved for the code as it is: the first velocity bin reaches one bin below the lowest velocity (C133_low_false shows such a particle). Particles across the periodic boundary are left out: their displacement is wrong in the code (C37_displacement_false)."
  },
  {
   "property": "C134",
   "status": "partial",
   "theorems": [
    "Shellfish.SmoothRound.C134_smoothed",
    "Shellfish.SmoothRound.C134_steepest",
    "Shellfish.SmoothRound.C134_restored_false"
   ],
   "note": "C134_smoothed, C134_steepest: everything but the last sentence, for all kernels given as float64 weights with a stated error (the rounding of the linear system that gives the weights is not modelled). False: the profile is not restored exactly, whatever exponential function is used (C134_restored_false); C134_smoothed bounds the change."
  },
  {
   "property": "C135",
   "status": "partial",
   "theorems": [
    "Shellfish.Smooth.C135_own_partial",
    "Shellfish.Smooth.C135_in_place_false",
    "Shellfish.Smooth.C135_slopes_false",
    "Shellfish.Smooth.C135_both_false",
    "Shellfish.Smooth.C135_stored"
   ],
   "note": "C135_own_partial: slices of their own (exact also behind the end of the profile), for all stored kernels that can arise (C135_stored). False in place: C135_in_place_false (all constant profiles), C135_slopes_false (all profiles), C135_both_false. Real arithmetic."
  },
  {
   "property": "C136",
   "status": "partial",
   "theorems": [
    "Shellfish.Round.C136_trilinear_partial",
    "Shellfish.Round.C136_knots_partial",
    "Shellfish.Round.C136_third_false"
   ],
   "note": "C136_trilinear_partial, C136_knots_partial: everything for grids whose third table is the second one. False otherwise (C136_third_false: the code looks z up in the table of y), for all grids that reach beyond the second table. Overflow is not modelled."
  },
  {
   "property": "C137",
   "status": "partial",
   "theorems": [
    "Shellfish.Round.C137_fraction_partial"
   ],
   "note": "C137_fraction_partial: everything for shells between the limits of the profile. Shells that leave the limits are wrong in the code even in exact arithmetic (C73_beyond_false, C73_below_false)."
  },
  {
   "property": "C138",
   "status": "partial",
   "theorems": [
    "Shellfish.Round.C138_radius_partial",
    "Shellfish.Round.C138_mass_partial",
    "Shellfish.Round.C138_inverse_partial",
    "Shellfish.Round.C138_column_partial",
    "Shellfish.Round.C138_lengths_partial",
    "Shellfish.Round.C138_coord_partial"
   ],
   "note": "The exponent range of float64 (overflow, subnormal numbers) is not modelled; math.Pow is assumed to have the stated accuracy."
  },
  {
   "property": "C139",
   "status": "partial",
   "theorems": [
    "Shellfish.Round.C139_rsp_partial",
    "Shellfish.Round.C139_columns_partial"
   ],
   "note": "The exponent 0.33333 of the code makes R_sp differ from the radius of the ball (C78_rsp_false); the theorems bound the difference. The exponent range of float64 is not modelled."
  },
  {
   "property": "C140",
   "status": "partial",
   "theorems": [
    "Shellfish.Round.C140_sphere_partial",
    "Shellfish.Round.C140_background_partial",
    "Shellfish.Round.C140_uniform_partial"
   ],
   "note": "The exponent range of float64 (overflow, subnormal numbers) is not modelled; flat cosmologies only (see C47_open_false); math.Pow is assumed to have the stated accuracy."
  },
  {
   "property": "C141",
   "status": "partial",
   "theorems": [
    "Shellfish.Round.C141_position_partial",
    "Shellfish.Round.C141_inside_false",
    "Shellfish.Round.C141_velocity_partial",
    "Shellfish.Round.C141_mass_partial"
   ],
   "note": "Overflow and subnormal numbers are not modelled; the strict bound y < TotalWidth is false (C141_inside_false)."
  },
  {
   "property": "C142",
   "status": "partial",
   "theorems": [
    "Shellfish.Round.C142_bolshoi_position_partial",
    "Shellfish.Round.C142_bolshoi_order",
    "Shellfish.Round.C142_bolshoi_redshift_partial",
    "Shellfish.Round.C142_bolshoi_velocity_partial",
    "Shellfish.Round.C142_bolshoi_mass_partial",
    "Shellfish.Round.C142_artio_position_partial",
    "Shellfish.Round.C142_artio_width_partial",
    "Shellfish.Round.C142_artio_inside_partial",
    "Shellfish.Round.C142_artio_mass_partial"
   ],
   "note": "Overflow and subnormal numbers are not modelled."
  }
 ]
}