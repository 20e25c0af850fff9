'Shellfish.Sort.C01_quick_sorts' depends on axioms: [propext, Classical.choice, Quot.sound]
'Shellfish.Sort.C01_shell_sorts' depends on axioms: [propext, Classical.choice, Quot.sound]
'Shellfish.Sort.C01_quick_eq_shell' depends on axioms: [propext, Classical.choice, Quot.sound]
'Shellfish.Sort.C01_reverse' depends on axioms: [propext, Classical.choice, Quot.sound]
'Shellfish.Sort.C02_nthLargest' depends on axioms: [propext, Classical.choice, Quot.sound]
'Shellfish.Sort.C02_nthLargest_eq_sorted' depends on axioms: [propext, Classical.choice, Quot.sound]
'Shellfish.Sort.C02_nthLargest_refuses' depends on axioms: [propext]
'Shellfish.Sort.C02_median_false' depends on axioms: [propext]
'Shellfish.Sort.C02_median_even_partial' depends on axioms: [propext, Classical.choice, Quot.sound]
'Shellfish.Sort.C02_median_odd_rank' depends on axioms: [propext, Classical.choice, Quot.sound]
'Shellfish.Sort.C03_percentile_rank' depends on axioms: [propext, Classical.choice, Quot.sound]
'Shellfish.Sort.C03_percentile_false' depends on axioms: [propext, Classical.choice, Quot.sound]
'Shellfish.Sort.C03_percentile_antitone' depends on axioms: [propext, Classical.choice, Quot.sound]
'Shellfish.Sort.C03_percentile_half_partial' depends on axioms: [propext, Classical.choice, Quot.sound]
'Shellfish.Version.C04_parse_iff' depends on axioms: [propext, Classical.choice, Quot.sound]
'Shellfish.Version.C04_parse_canonical' depends on axioms: [propext, Classical.choice, Quot.sound]
'Shellfish.Version.C04_later_iff' depends on axioms: [propext, Classical.choice, Quot.sound]
'Shellfish.Version.C04_later_irrefl' depends on axioms: [propext, Classical.choice, Quot.sound]
'Shellfish.Version.C04_later_asymm' depends on axioms: [propext, Classical.choice, Quot.sound]
'Shellfish.Version.C04_later_trans' depends on axioms: [propext, Classical.choice, Quot.sound]
'Shellfish.Version.C04_later_total' depends on axioms: [propext, Classical.choice, Quot.sound]
'Shellfish.Version.C04_later_error' depends on axioms: [propext, Quot.sound]
'Shellfish.Config.C05_success_iff' depends on axioms: [propext, Classical.choice, Quot.sound]
'Shellfish.Config.C05_errors' depends on axioms: [propext, Classical.choice, Quot.sound]
'Shellfish.Config.C06_layout' depends on axioms: [propext, Classical.choice, Quot.sound]
'Shellfish.Config.C07_flags_iff' depends on axioms: [propext, Classical.choice, Quot.sound]
'Shellfish.Config.C07_override' depends on axioms: [propext, Classical.choice, Quot.sound]
'Shellfish.Config.C07_arguments' depends on axioms: [propext]
'Shellfish.Config.C07_bad_flags_refused' depends on axioms: [propext, Classical.choice, Quot.sound]
'Shellfish.Config.C08_config_panic_iff' depends on axioms: [propext, Classical.choice, Quot.sound]
'Shellfish.Config.C08_config_false' depends on axioms: [propext, Classical.choice, Quot.sound]
'Shellfish.Config.C08_config_no_panic_partial' depends on axioms: [propext, Classical.choice, Quot.sound]
'Shellfish.Config.C08_flags_panic_iff' depends on axioms: [propext, Classical.choice, Quot.sound]
'Shellfish.Config.C08_flags_false' depends on axioms: [propext, Classical.choice, Quot.sound]
'Shellfish.Catalog.C09_words' depends on axioms: [propext, Quot.sound]
'Shellfish.Catalog.C09_round_trip' depends on axioms: [propext, Classical.choice, Quot.sound]
'Shellfish.Catalog.C09_aligned' depends on axioms: [propext, Quot.sound]
'Shellfish.Pipe.C09_int64' depends on axioms: [propext, Quot.sound]
'Shellfish.Catalog.C10_ok_iff' depends on axioms: [propext, Classical.choice, Quot.sound]
'Shellfish.Catalog.C10_panic_iff' depends on axioms: [propext, Classical.choice, Quot.sound]
'Shellfish.Catalog.C10_no_panic_partial' depends on axioms: [propext, Classical.choice, Quot.sound]
'Shellfish.Catalog.C10_longer_row_panics' depends on axioms: [propext, Classical.choice, Quot.sound]
'Shellfish.Catalog.C10_carriage_return_panics' depends on axioms: [propext, Classical.choice, Quot.sound]
'Shellfish.Catalog.C11_header' depends on axioms: [propext, Classical.choice, Quot.sound]
'Shellfish.Catalog.C11_ranges_partition' depends on axioms: [propext, Classical.choice, Quot.sound]
'Shellfish.Env.C12_interleave' depends on axioms: [propext, Classical.choice, Quot.sound]
'Shellfish.Env.C12_snapshot_files' depends on axioms: [propext, Classical.choice, Quot.sound]
'Shellfish.Env.C12_format_without_snapshot_false' depends on axioms: [propext, Classical.choice, Quot.sound]
'Shellfish.Env.C12_nil_false' depends on axioms: [propext, Classical.choice, Quot.sound]
'Shellfish.Env.C12_nil_partial' depends on axioms: [propext, Quot.sound]
'Shellfish.Env.C12_gotetra' depends on axioms: [propext, Classical.choice, Quot.sound]
'Shellfish.Filter.C13_round_trip' depends on axioms: [propext, Classical.choice, Quot.sound]
'Shellfish.Filter.C14_recorded' depends on axioms: [propext, Classical.choice, Quot.sound]
'Shellfish.Filter.C14_start_correct_iff_partial' depends on axioms: [propext, Classical.choice, Quot.sound]
'Shellfish.Filter.C14_second_halo_false' depends on axioms: [propext, Classical.choice, Quot.sound]
'Shellfish.Rand.C15_next' depends on axioms: [propext, Classical.choice, Quot.sound]
'Shellfish.Rand.C15_nextSeq_eq_draws' depends on axioms: [propext, Classical.choice, Quot.sound]
'Shellfish.Rand.C15_nextSeq_range' depends on axioms: [propext, Classical.choice, Quot.sound]
'Shellfish.Rand.C15_uniform_range' depends on axioms: [propext, Classical.choice, Quot.sound]
'Shellfish.Rand.C15_uniformInt_range' depends on axioms: [propext, Classical.choice, Quot.sound]
'Shellfish.Rand.C15_uniformAt_eq' depends on axioms: [propext, Classical.choice, Quot.sound]
'Shellfish.Rand.C15_uniform_eq' depends on axioms: [propext, Classical.choice, Quot.sound]
'Shellfish.Rand.C16_next' depends on axioms: [propext, Classical.choice, Quot.sound]
'Shellfish.Rand.C16_nextSeq_eq_draws' depends on axioms: [propext, Classical.choice, Quot.sound]
'Shellfish.Rand.C16_indices' depends on axioms: [propext, Classical.choice, Quot.sound]
'Shellfish.Sobol.C17_range' depends on axioms: [propext, Classical.choice, Quot.sound]
'Shellfish.Sobol.C17_distinct' depends on axioms: [propext, Classical.choice, Quot.sound]
'Shellfish.Sobol.C17_equidistributed' depends on axioms: [propext, Classical.choice, Quot.sound]
'Shellfish.Sobol.C17_exhausted' depends on axioms: [propext, Classical.choice, Quot.sound]
'Shellfish.Sobol.C17_dim_refused' depends on axioms: [propext, Classical.choice, Quot.sound]
'Shellfish.Sobol.C17_first_points_false' depends on axioms: [propext, Classical.choice, Quot.sound]
'Shellfish.Sobol.C17_reinit_not_fresh' depends on axioms: [propext, Classical.choice, Quot.sound]
'Shellfish.Par.C18_waits_for_all' depends on axioms: [propext, Classical.choice, Quot.sound]
'Shellfish.Par.C18_unlock_never_blocks' depends on axioms: [propext, Classical.choice, Quot.sound]
'Shellfish.Par.C18_no_deadlock' depends on axioms: [propext, Classical.choice, Quot.sound]
'Shellfish.Par.C18_no_infinite_run' depends on axioms: [propext, Classical.choice, Quot.sound]
'Shellfish.Par.C18_can_finish' depends on axioms: [propext, Classical.choice, Quot.sound]
'Shellfish.Par.C18_lock_group' depends on axioms: [propext, Classical.choice, Quot.sound]
'Shellfish.Par.C19_each_index_once' depends on axioms: [propext, Classical.choice, Quot.sound]
'Shellfish.Par.C19_no_shared_index' depends on axioms: [propext, Classical.choice, Quot.sound]
'Shellfish.Par.C19_result_independent_of_schedule' depends on axioms: [propext, Classical.choice, Quot.sound]
'Shellfish.Par.C19_mass' depends on axioms: [propext, Classical.choice, Quot.sound]
'Shellfish.Par.C19_ids' depends on axioms: [propext, Classical.choice, Quot.sound]
'Shellfish.Los.C20_halo' depends on axioms: [propext, Classical.choice, Quot.sound]
'Shellfish.Los.C20_run' depends on axioms: [propext, Classical.choice, Quot.sound]
'Shellfish.Los.C20_distribution_irrelevant' depends on axioms: [propext, Classical.choice, Quot.sound]
'Shellfish.Los.C20_join_mismatch' depends on axioms: [propext, Quot.sound]
'Shellfish.Los.C20_split_join_neutral' depends on axioms: [propext, Classical.choice, Quot.sound]
'Shellfish.Los.C20_stale_width_false' depends on axioms: [propext, Classical.choice, Quot.sound]
'Shellfish.Los.C21_profile' depends on axioms: [propext, Classical.choice, Quot.sound]
'Shellfish.Los.C21_order_irrelevant' depends on axioms: [propext, Classical.choice, Quot.sound]
'Shellfish.Los.C21_outside' depends on axioms: [propext, Quot.sound]
'Shellfish.Finder.C22_cells' depends on axioms: [propext, Classical.choice, Quot.sound]
'Shellfish.Finder.C22_far_false' depends on axioms: [propext, Classical.choice, Quot.sound]
'Shellfish.Finder.C22_far_panic_false' depends on axioms: [propext, Classical.choice, Quot.sound]
'Shellfish.Finder.C23_exact_partial' depends on axioms: [propext, Classical.choice, Quot.sound]
'Shellfish.Finder.C23_split_partial' depends on axioms: [propext, Classical.choice, Quot.sound]
'Shellfish.Finder.C23_twice_false' depends on axioms: [propext, Classical.choice, Quot.sound]
'Shellfish.Finder.C23_panic_false' depends on axioms: [propext, Classical.choice, Quot.sound]
'Shellfish.Finder.C23_empty_false' depends on axioms: [propext, Classical.choice, Quot.sound]
'Shellfish.Finder.C24_lists_partial' depends on axioms: [propext, Classical.choice, Quot.sound]
'Shellfish.Finder.C24_converse' depends on axioms: [propext, Classical.choice, Quot.sound]
'Shellfish.IdMode.C25_list' depends on axioms: [propext, Classical.choice, Quot.sound]
'Shellfish.IdMode.C25_ids' depends on axioms: [propext, Quot.sound]
'Shellfish.IdMode.C25_range_partial' depends on axioms: [propext, Classical.choice, Quot.sound]
'Shellfish.IdMode.C25_range_false' depends on axioms: [propext, Classical.choice, Quot.sound]
'Shellfish.IdMode.C25_mass_partial' depends on axioms: [propext, Classical.choice, Quot.sound]
'Shellfish.IdMode.C25_mass_empty_false' depends on axioms: [propext, Classical.choice, Quot.sound]
'Shellfish.IdMode.C25_mass_high_false' depends on axioms: [propext, Classical.choice, Quot.sound]
'Shellfish.Memo.C26_ranking_partial' depends on axioms: [propext, Classical.choice, Quot.sound]
'Shellfish.Memo.C26_end_false' depends on axioms: [propext, Classical.choice, Quot.sound]
'Shellfish.Memo.C27_cached_partial' depends on axioms: [propext, Quot.sound]
'Shellfish.Memo.C27_failed' does not depend on any axioms
'Shellfish.Memo.C27_interrupted_false' depends on axioms: [propext, Quot.sound]
'Shellfish.MemoConfig.C28_accept' depends on axioms: [propext, Classical.choice, Quot.sound]
'Shellfish.MemoConfig.C28_stored' depends on axioms: [propext]
'Shellfish.MemoConfig.C28_headers_partial' depends on axioms: [propext, Classical.choice, Quot.sound]
'Shellfish.MemoConfig.C28_halos' depends on axioms: [propext, Classical.choice, Quot.sound]
'Shellfish.MemoConfig.C28_nil_fresh' depends on axioms: [propext, Classical.choice, Quot.sound]
'Shellfish.MemoConfig.C28_nil_false' depends on axioms: [propext]
'Shellfish.MemoConfig.C28_units_false' depends on axioms: [propext]
'Shellfish.Memo.C29_find' depends on axioms: [propext, Quot.sound]
'Shellfish.Memo.C29_values' depends on axioms: [propext, Classical.choice, Quot.sound]
'Shellfish.Io.C30_swap_twice' depends on axioms: [propext, Classical.choice, Quot.sound]
'Shellfish.Io.C30_swap_where' depends on axioms: [propext, Classical.choice, Quot.sound]
'Shellfish.Io.C30_round_trip' depends on axioms: [propext, Classical.choice, Quot.sound]
'Shellfish.Io.C30_gadget2_twins' depends on axioms: [propext, Classical.choice, Quot.sound]
'Shellfish.Io.C30_header_false' depends on axioms: [propext]
'Shellfish.Io.C31_gadget2_partial' depends on axioms: [propext, Classical.choice, Quot.sound]
'Shellfish.Io.C31_total' depends on axioms: [propext, Quot.sound]
'Shellfish.Io.C31_header_count' depends on axioms: [propext, Classical.choice, Quot.sound]
'Shellfish.Io.C31_header_count_false' depends on axioms: [propext]
'Shellfish.Io.C31_no_mass_block_false' depends on axioms: [propext, Quot.sound]
'Shellfish.Io.C31_no_particles_false' depends on axioms: [propext, Quot.sound]
'Shellfish.Io.C31_big_ids_false' depends on axioms: [propext]
'Shellfish.Io.C31_lgadget2_partial' depends on axioms: [propext, Classical.choice, Quot.sound]
'Shellfish.Io.C31_lgadget2_false' depends on axioms: [propext, Classical.choice, Quot.sound]
'Shellfish.Round.C32_float32_partial' depends on axioms: [propext, Classical.choice, Quot.sound]
'Shellfish.Round.C32_float32_false' depends on axioms: [propext, Classical.choice, Quot.sound]
'Shellfish.Round.C32_float32_accepted' depends on axioms: [propext, Classical.choice, Quot.sound]
'Shellfish.Round.C32_float32_corrupt' depends on axioms: [propext, Classical.choice, Quot.sound]
'Shellfish.Io.C32_wrapped_partial' depends on axioms: [propext, Classical.choice, Quot.sound]
'Shellfish.Io.C32_rounded_partial' depends on axioms: [propext, Classical.choice, Quot.sound]
'Shellfish.Io.C32_rounding_false' depends on axioms: [propext, Classical.choice, Quot.sound]
'Shellfish.Io.C32_far_false' depends on axioms: [propext, Classical.choice, Quot.sound]
'Shellfish.Io.C32_corrupt' depends on axioms: [propext, Classical.choice, Quot.sound]
'Shellfish.Io.C32_all_partial' depends on axioms: [propext, Classical.choice, Quot.sound]
'Shellfish.Io.C33_contains' depends on axioms: [propext, Classical.choice, Quot.sound]
'Shellfish.Io.C33_tight' depends on axioms: [propext, Classical.choice, Quot.sound]
'Shellfish.Io.C33_empty_false' depends on axioms: [propext, Quot.sound]
'Shellfish.Io.C34_discipline' depends on axioms: [propext, Classical.choice, Quot.sound]
'Shellfish.Io.C34_bolshoi_false' depends on axioms: [propext]
'Shellfish.Io.C35_segment' depends on axioms: [propext, Classical.choice, Quot.sound]
'Shellfish.Io.C35_segment_too_wide' depends on axioms: [propext, Quot.sound]
'Shellfish.Io.C35_file_coords' depends on axioms: [propext, Classical.choice, Quot.sound]
'Shellfish.Io.C35_file' depends on axioms: [propext, Classical.choice, Quot.sound]
'Shellfish.Los.C36_selected_partial' depends on axioms: [propext, Classical.choice, Quot.sound]
'Shellfish.Los.C36_sphere_partial' depends on axioms: [propext, Classical.choice, Quot.sound]
'Shellfish.Los.C36_subset' depends on axioms: [propext, Classical.choice, Quot.sound]
'Shellfish.Los.C36_large_region_false' depends on axioms: [propext, Classical.choice, Quot.sound]
'Shellfish.Los.C36_kernel_false' depends on axioms: [propext, Classical.choice, Quot.sound]
'Shellfish.Los.C37_nearest' depends on axioms: [propext, Classical.choice, Quot.sound]
'Shellfish.Los.C37_displacement_partial' depends on axioms: [propext, Classical.choice, Quot.sound]
'Shellfish.Los.C37_displacement_false' depends on axioms: [propext, Classical.choice, Quot.sound]
'Shellfish.Los.C38_cover' depends on axioms: [propext, Classical.choice, Quot.sound]
'Shellfish.Los.C38_no_extra_false' depends on axioms: [propext, Classical.choice, Quot.sound]
'Shellfish.Los.C38_one_spoke_false' depends on axioms: [propext, Classical.choice, Quot.sound]
'Shellfish.Geom.C39_disk_partial' depends on axioms: [propext, Classical.choice, Quot.sound]
'Shellfish.Geom.C39_disk_false' depends on axioms: [propext, Classical.choice, Quot.sound]
'Shellfish.Geom.C39_sphere_partial' depends on axioms: [propext, Classical.choice, Quot.sound]
'Shellfish.Geom.C39_sphere_false' depends on axioms: [propext, Classical.choice, Quot.sound]
'Shellfish.Geom.C39_particle_partial' depends on axioms: [propext, Classical.choice, Quot.sound]
'Shellfish.Geom.C39_disk_onto' depends on axioms: [propext, Classical.choice, Quot.sound]
'Shellfish.Geom.C39_sphere_onto' depends on axioms: [propext, Classical.choice, Quot.sound]
'Shellfish.Geom.C40_ray' depends on axioms: [propext, Classical.choice, Quot.sound]
'Shellfish.Geom.C40_segment' depends on axioms: [propext, Classical.choice, Quot.sound]
'Shellfish.Geom.C40_anchored' depends on axioms: [propext, Classical.choice, Quot.sound]
'Shellfish.Geom.C40_dot' depends on axioms: [propext, Classical.choice, Quot.sound]
'Shellfish.Geom.C40_tetra' depends on axioms: [propext, Classical.choice, Quot.sound]
'Shellfish.Geom.C40_distance' depends on axioms: [propext, Classical.choice, Quot.sound]
'Shellfish.Mat.C41_lu' depends on axioms: [propext, Classical.choice, Quot.sound]
'Shellfish.Mat.C41_determinant_partial' depends on axioms: [propext, Classical.choice, Quot.sound]
'Shellfish.Mat.C41_determinant_false' depends on axioms: [propext, Classical.choice, Quot.sound]
'Shellfish.Mat.C41_zero_column_false' depends on axioms: [propext, Classical.choice, Quot.sound]
'Shellfish.Mat.C41_solve_partial' depends on axioms: [propext, Classical.choice, Quot.sound]
'Shellfish.Mat.C41_solve_false' depends on axioms: [propext, Classical.choice, Quot.sound]
'Shellfish.Mat.C41_solve_triangular' depends on axioms: [propext, Classical.choice, Quot.sound]
'Shellfish.Mat.C41_invert_partial' depends on axioms: [propext, Classical.choice, Quot.sound]
'Shellfish.Mat.C41_invert_false' depends on axioms: [propext, Classical.choice, Quot.sound]
'Shellfish.Mat.C41_solve_matrix_false' depends on axioms: [propext, Classical.choice, Quot.sound]
'Shellfish.Mat.C41_mult_vec' depends on axioms: [propext, Classical.choice, Quot.sound]
'Shellfish.Mat.C41_vec_mult' depends on axioms: [propext, Classical.choice, Quot.sound]
'Shellfish.Mat.C41_mult_partial' depends on axioms: [propext, Classical.choice, Quot.sound]
'Shellfish.Mat.C41_mult_false' depends on axioms: [propext, Classical.choice, Quot.sound]
'Shellfish.Mat.C41_transpose' depends on axioms: [propext, Classical.choice, Quot.sound]
'Shellfish.Interp.C42_linear' depends on axioms: [propext, Classical.choice, Quot.sound]
'Shellfish.Interp.C42_linear_between' depends on axioms: [propext, Classical.choice, Quot.sound]
'Shellfish.Interp.C42_uniform_linear' depends on axioms: [propext, Classical.choice, Quot.sound]
'Shellfish.Interp.C42_decreasing_false' depends on axioms: [propext, Classical.choice, Quot.sound]
'Shellfish.Interp.C42_bilinear' depends on axioms: [propext, Classical.choice, Quot.sound]
'Shellfish.Interp.C42_uniform_bilinear' depends on axioms: [propext, Classical.choice, Quot.sound]
'Shellfish.Interp.C42_trilinear_partial' depends on axioms: [propext, Classical.choice, Quot.sound]
'Shellfish.Interp.C42_trilinear_false' depends on axioms: [propext, Classical.choice, Quot.sound]
'Shellfish.Interp.C42_tridiag' depends on axioms: [propext, Classical.choice, Quot.sound]
'Shellfish.Interp.C42_tridiag_dominant' depends on axioms: [propext, Classical.choice, Quot.sound]
'Shellfish.Interp.C42_spline' depends on axioms: [propext, Classical.choice, Quot.sound]
'Shellfish.Interp.C42_spline_knots' depends on axioms: [propext, Classical.choice, Quot.sound]
'Shellfish.Interp.C42_deriv_end_false' depends on axioms: [propext, Classical.choice, Quot.sound]
'Shellfish.Interp.C42_two_points_false' depends on axioms: [propext, Classical.choice, Quot.sound]
'Shellfish.Interp.C42_spline_rejects' depends on axioms: [propext, Classical.choice, Quot.sound]
'Shellfish.Interp.C42_integrate_partial' depends on axioms: [propext, Classical.choice, Quot.sound]
'Shellfish.Interp.C42_integrate_false' depends on axioms: [propext, Classical.choice, Quot.sound]
'Shellfish.Smooth.C43_splashback' depends on axioms: [propext, Classical.choice, Quot.sound]
'Shellfish.Smooth.C43_lengths' depends on axioms: [propext, Quot.sound]
'Shellfish.Cmd.C44_groups' depends on axioms: [propext, Classical.choice, Quot.sound]
'Shellfish.Cmd.C44_coeff_groups' depends on axioms: [propext, Classical.choice, Quot.sound]
'Shellfish.Cmd.C44_short_ids' depends on axioms: [propext, Quot.sound]
'Shellfish.Cmd.C44_partition' depends on axioms: [propext, Classical.choice, Quot.sound]
'Shellfish.Cmd.C44_map_order' depends on axioms: [propext, Quot.sound]
'Shellfish.Tree.C45_history' depends on axioms: [propext, Classical.choice, Quot.sound]
'Shellfish.Tree.C45_histories' depends on axioms: [propext, Classical.choice, Quot.sound]
'Shellfish.Tree.C45_lines' depends on axioms: [propext, Classical.choice, Quot.sound]
'Shellfish.Tree.C45_run_partial' depends on axioms: [propext, Classical.choice, Quot.sound]
'Shellfish.Tree.C45_sentinel_false' depends on axioms: [propext, Classical.choice, Quot.sound]
'Shellfish.Tree.C45_missing' depends on axioms: [propext, Classical.choice, Quot.sound]
'Shellfish.Tree.C45_files' depends on axioms: [propext, Classical.choice, Quot.sound]
'Shellfish.Tree.C45_repeated_false' depends on axioms: [propext, Classical.choice, Quot.sound]
'Shellfish.Coord.C46_words' depends on axioms: [propext, Classical.choice, Quot.sound]
'Shellfish.Coord.C46_columns_partial' depends on axioms: [propext, Classical.choice, Quot.sound]
'Shellfish.Coord.C46_integers_first' depends on axioms: [propext, Classical.choice, Quot.sound]
'Shellfish.Coord.C46_header' depends on axioms: [propext, Classical.choice, Quot.sound]
'Shellfish.Coord.C46_values' depends on axioms: [propext, Classical.choice, Quot.sound]
'Shellfish.Coord.C46_run_partial' depends on axioms: [propext, Classical.choice, Quot.sound]
'Shellfish.Coord.C46_columns_false' depends on axioms: [propext, Classical.choice, Quot.sound]
'Shellfish.Coord.C46_r2500c_false' depends on axioms: [propext, Classical.choice, Quot.sound]
'Shellfish.Coord.C46_units_false' depends on axioms: [propext, Classical.choice, Quot.sound]
'Shellfish.Coord.C46_redshift_false' depends on axioms: [propext, Classical.choice, Quot.sound]
'Shellfish.Radius.C47_densities' depends on axioms: [propext, Classical.choice, Quot.sound]
'Shellfish.Radius.C47_value' depends on axioms: [propext, Classical.choice, Quot.sound]
'Shellfish.Radius.C47_open_false' depends on axioms: [propext, Classical.choice, Quot.sound]
'Shellfish.Radius.C47_names' depends on axioms: [propext, Classical.choice, Quot.sound]
'Shellfish.Radius.C47_mass_name_partial' depends on axioms: [propext, Classical.choice, Quot.sound]
'Shellfish.Radius.C47_mass_name_false' does not depend on any axioms
'Shellfish.Radius.C47_radius' depends on axioms: [propext, Classical.choice, Quot.sound]
'Shellfish.Radius.C47_inverse' depends on axioms: [propext, Classical.choice, Quot.sound]
'Shellfish.Radius.C47_monotone' depends on axioms: [propext, Classical.choice, Quot.sound]
'Shellfish.Radius.C47_nested' depends on axioms: [propext, Classical.choice, Quot.sound]
'Shellfish.Radius.C47_units' depends on axioms: [propext, Classical.choice, Quot.sound]
'Shellfish.Radius.C47_units_panic' depends on axioms: [propext, Classical.choice, Quot.sound]
'Shellfish.Deriv.C48_order2' depends on axioms: [propext, Classical.choice, Quot.sound]
'Shellfish.Deriv.C48_order4_partial' depends on axioms: [propext, Classical.choice, Quot.sound]
'Shellfish.Deriv.C48_order4_false' depends on axioms: [propext, Classical.choice, Quot.sound]
'Shellfish.Deriv.C48_line_inner' depends on axioms: [propext, Classical.choice, Quot.sound]
'Shellfish.Deriv.C48_nonuniform_false' depends on axioms: [propext, Classical.choice, Quot.sound]
'Shellfish.Deriv.C48_order0_false' depends on axioms: [propext, Classical.choice, Quot.sound]
'Shellfish.Deriv.C48_panics' depends on axioms: [propext, Classical.choice, Quot.sound]
'Shellfish.Cmd.C49_prof_particle_false' depends on axioms: [propext, Classical.choice, Quot.sound]
'Shellfish.Cmd.C49_unknown_false' depends on axioms: [propext, Classical.choice, Quot.sound]
'Shellfish.Cmd.C49_known' depends on axioms: [propext, Classical.choice, Quot.sound]
'Shellfish.Cmd.C49_phase_empty' depends on axioms: [propext, Classical.choice, Quot.sound]
'Shellfish.Cmd.C49_prof_empty_false' depends on axioms: [propext, Classical.choice, Quot.sound]
'Shellfish.Cmd.C49_phase' depends on axioms: [propext, Classical.choice, Quot.sound]
'Shellfish.Cmd.C49_prof_false' depends on axioms: [propext, Classical.choice, Quot.sound]
'Shellfish.Cmd.C49_prof_partial' depends on axioms: [propext, Classical.choice, Quot.sound]
'Shellfish.Cmd.C49_marker_first_false' depends on axioms: [propext, Classical.choice, Quot.sound]
'Shellfish.Cmd.C49_phase_all_files_partial' depends on axioms: [propext, Classical.choice, Quot.sound]
'Shellfish.Cmd.C49_phase_split_false' depends on axioms: [propext, Classical.choice, Quot.sound]
'Shellfish.Cmd.C50_density' depends on axioms: [propext, Classical.choice, Quot.sound]
'Shellfish.Cmd.C50_one_bin' depends on axioms: [propext, Classical.choice, Quot.sound]
'Shellfish.Cmd.C50_processed' depends on axioms: [propext, Classical.choice, Quot.sound]
'Shellfish.Cmd.C50_volumes' depends on axioms: [propext, Classical.choice, Quot.sound]
'Shellfish.Cmd.C50_bound' depends on axioms: [propext, Classical.choice, Quot.sound]
'Shellfish.Cmd.C50_contained' depends on axioms: [propext, Classical.choice, Quot.sound]
'Shellfish.Cmd.C50_plain' depends on axioms: [propext, Classical.choice, Quot.sound]
'Shellfish.Cmd.C50_phase_velocity' depends on axioms: [propext, Classical.choice, Quot.sound]
'Shellfish.Cmd.C50_phase_range' depends on axioms: [propext, Classical.choice, Quot.sound]
'Shellfish.Cmd.C50_median_partial' depends on axioms: [propext, Classical.choice, Quot.sound]
'Shellfish.Cmd.C50_pixels_partial' depends on axioms: [propext, Classical.choice, Quot.sound]
'Shellfish.Cmd.C50_median_false' depends on axioms: [propext, Classical.choice, Quot.sound]
'Shellfish.Cmd.C50_phase_cells' depends on axioms: [propext, Classical.choice, Quot.sound]
'Shellfish.Cmd.C50_phase_total' depends on axioms: [propext, Classical.choice, Quot.sound]
'Shellfish.Cmd.C50_phase_radial_partial' depends on axioms: [propext, Classical.choice, Quot.sound]
'Shellfish.Cmd.C50_phase_radial_false' depends on axioms: [propext, Classical.choice, Quot.sound]
'Shellfish.Cmd.C50_phase_processed' depends on axioms: [propext, Classical.choice, Quot.sound]
'Shellfish.Modes.C51_shell' depends on axioms: [propext, Classical.choice, Quot.sound]
'Shellfish.Modes.C51_example_shell' depends on axioms: [propext, Classical.choice, Quot.sound]
'Shellfish.Modes.C51_id' depends on axioms: [propext, Classical.choice, Quot.sound]
'Shellfish.Modes.C51_example_id' depends on axioms: [propext, Classical.choice, Quot.sound]
'Shellfish.Modes.C51_tree' depends on axioms: [propext, Classical.choice, Quot.sound]
'Shellfish.Modes.C51_example_tree' depends on axioms: [propext, Classical.choice, Quot.sound]
'Shellfish.Modes.C51_stats' depends on axioms: [propext, Classical.choice, Quot.sound]
'Shellfish.Modes.C51_example_stats' depends on axioms: [propext, Classical.choice, Quot.sound]
'Shellfish.Modes.C51_prof' depends on axioms: [propext, Classical.choice, Quot.sound]
'Shellfish.Modes.C51_example_prof' depends on axioms: [propext, Classical.choice, Quot.sound]
'Shellfish.Modes.C51_check' depends on axioms: [propext, Classical.choice, Quot.sound]
'Shellfish.Modes.C51_example_check' depends on axioms: [propext, Classical.choice, Quot.sound]
'Shellfish.Modes.C51_phase_partial' depends on axioms: [propext, Classical.choice, Quot.sound]
'Shellfish.Modes.C51_coord_partial' depends on axioms: [propext, Classical.choice, Quot.sound]
'Shellfish.Modes.C51_header_false' depends on axioms: [propext, Classical.choice, Quot.sound]
'Shellfish.Modes.C51_ncells_false' depends on axioms: [propext, Classical.choice, Quot.sound]
'Shellfish.Modes.C51_global' depends on axioms: [propext, Classical.choice, Quot.sound]
'Shellfish.Modes.C51_example_global' depends on axioms: [propext, Classical.choice, Quot.sound]
'Shellfish.Modes.C51_nilscale_false' depends on axioms: [propext, Classical.choice, Quot.sound]
'Shellfish.Smooth.C52_convolve' depends on axioms: [propext, Classical.choice, Quot.sound]
'Shellfish.Smooth.C52_convolve_partial' depends on axioms: [propext, Classical.choice, Quot.sound]
'Shellfish.Smooth.C52_interior' depends on axioms: [propext, Classical.choice, Quot.sound]
'Shellfish.Smooth.C52_short_panics' depends on axioms: [propext, Classical.choice, Quot.sound]
'Shellfish.Smooth.C52_constant' depends on axioms: [propext, Classical.choice, Quot.sound]
'Shellfish.Smooth.C52_range' depends on axioms: [propext, Classical.choice, Quot.sound]
'Shellfish.Smooth.C52_periodic_false' depends on axioms: [propext, Classical.choice, Quot.sound]
'Shellfish.Smooth.C52_reflection_false' depends on axioms: [propext, Classical.choice, Quot.sound]
'Shellfish.Smooth.C52_reverse' depends on axioms: [propext, Classical.choice, Quot.sound]
'Shellfish.Smooth.C52_get' depends on axioms: [propext, Classical.choice, Quot.sound]
'Shellfish.Smooth.C52_get_partial' depends on axioms: [propext, Classical.choice, Quot.sound]
'Shellfish.Smooth.C52_get_false' depends on axioms: [propext, Classical.choice, Quot.sound]
'Shellfish.Smooth.C52_tophat' depends on axioms: [propext, Quot.sound]
'Shellfish.Smooth.C52_gaussian' depends on axioms: [propext, Classical.choice, Quot.sound]
'Shellfish.Env.C53_unchecked_meaning_false' depends on axioms: [propext, Classical.choice, Quot.sound]
'Shellfish.Env.C53_missing_block_false' depends on axioms: [propext, Classical.choice, Quot.sound]
'Shellfish.Env.C53_logging_unchecked_false' depends on axioms: [propext, Classical.choice, Quot.sound]
'Shellfish.Env.C53_validate_false' depends on axioms: [propext, Classical.choice, Quot.sound]
'Shellfish.Env.C53_accepted_enumerates_partial' depends on axioms: [propext, Classical.choice, Quot.sound]
'Shellfish.Env.C53_numbered_block' depends on axioms: [propext, Classical.choice, Quot.sound]
'Shellfish.Env.C54_halo_files' depends on axioms: [propext, Quot.sound]
'Shellfish.Geom.C55_rotation_between' depends on axioms: [propext, Classical.choice, Quot.sound]
'Shellfish.Geom.C55_keeps_dot' depends on axioms: [propext, Classical.choice, Quot.sound]
'Shellfish.Geom.C55_inverse' depends on axioms: [propext, Classical.choice, Quot.sound]
'Shellfish.Geom.C55_angular_distance' depends on axioms: [propext, Classical.choice, Quot.sound]
'Shellfish.Geom.C55_angle_in_range_partial' depends on axioms: [propext, Classical.choice, Quot.sound]
'Shellfish.Geom.C55_angle_in_range_end_false' depends on axioms: [propext, Classical.choice, Quot.sound]
'Shellfish.Los.C56_insert_partial' depends on axioms: [propext, Classical.choice, Quot.sound]
'Shellfish.Los.C56_backward_false' depends on axioms: [propext, Classical.choice, Quot.sound]
'Shellfish.Los.C56_lines_partial' depends on axioms: [propext, Classical.choice, Quot.sound]
'Shellfish.Los.C57_cut_partial' depends on axioms: [propext, Classical.choice, Quot.sound]
'Shellfish.Los.C57_center_false' depends on axioms: [propext, Classical.choice, Quot.sound]
'Shellfish.Memo.C58_sorted' depends on axioms: [propext, Classical.choice, Quot.sound]
'Shellfish.Memo.C58_values' depends on axioms: [propext, Classical.choice, Quot.sound]
'Shellfish.IdMode.C59_overlap_partial' depends on axioms: [propext, Classical.choice, Quot.sound]
'Shellfish.IdMode.C59_neighbor_partial' depends on axioms: [propext, Classical.choice, Quot.sound]
'Shellfish.IdMode.C59_shells_false' depends on axioms: [propext, Classical.choice, Quot.sound]
'Shellfish.Io.C60_bolshoi_read' depends on axioms: [propext, Classical.choice, Quot.sound]
'Shellfish.Io.C60_bolshoiP_read' depends on axioms: [propext, Classical.choice, Quot.sound]
'Shellfish.Io.C60_bolshoi_header' depends on axioms: [propext, Classical.choice, Quot.sound]
'Shellfish.Io.C60_header_layout' depends on axioms: [propext, Classical.choice, Quot.sound]
'Shellfish.Io.C60_bolshoi_new' depends on axioms: [propext, Classical.choice, Quot.sound]
'Shellfish.Io.C60_bolshoi_in_order' depends on axioms: [propext, Classical.choice, Quot.sound]
'Shellfish.Io.C61_bolshoiP' depends on axioms: [propext, Classical.choice, Quot.sound]
'Shellfish.Io.C61_exactly_once_partial' depends on axioms: [propext, Classical.choice, Quot.sound]
'Shellfish.Io.C61_origin_false' depends on axioms: [propext, Classical.choice, Quot.sound]
'Shellfish.Io.C62_gadget2_partial' depends on axioms: [propext, Classical.choice, Quot.sound]
'Shellfish.Io.C62_bolshoi_partial' depends on axioms: [propext, Classical.choice, Quot.sound]
'Shellfish.Io.C62_lgadget2_partial' depends on axioms: [propext, Classical.choice, Quot.sound]
'Shellfish.Io.C62_lgadget2_false' depends on axioms: [propext]
'Shellfish.Io.C62_gotetra_missing_false' depends on axioms: [propext, Classical.choice, Quot.sound]
'Shellfish.Geom.C63_on_tetra_partial' depends on axioms: [propext, Classical.choice, Quot.sound]
'Shellfish.Geom.C63_complete' depends on axioms: [propext, Classical.choice, Quot.sound]
'Shellfish.Geom.C63_coplanar_false' depends on axioms: [propext, Classical.choice, Quot.sound]
'Shellfish.Geom.C63_oriented' depends on axioms: [propext, Classical.choice, Quot.sound]
'Shellfish.Geom.C64_point' depends on axioms: [propext, Classical.choice, Quot.sound]
'Shellfish.Geom.C64_spheres' depends on axioms: [propext, Classical.choice, Quot.sound]
'Shellfish.Geom.C64_contain' depends on axioms: [propext, Classical.choice, Quot.sound]
'Shellfish.Geom.C64_contain_complete' depends on axioms: [propext, Classical.choice, Quot.sound]
'Shellfish.Geom.C64_bounding' depends on axioms: [propext, Classical.choice, Quot.sound]
'Shellfish.Geom.C64_tetra_contain' depends on axioms: [propext, Classical.choice, Quot.sound]
'Shellfish.Geom.C64_tetra_partial' depends on axioms: [propext, Classical.choice, Quot.sound]
'Shellfish.Geom.C64_tetra_false' depends on axioms: [propext, Classical.choice, Quot.sound]
'Shellfish.Geom.C64_volume' depends on axioms: [propext, Classical.choice, Quot.sound]
'Shellfish.Geom.C64_orient' depends on axioms: [propext, Classical.choice, Quot.sound]
'Shellfish.Geom.C64_segment_partial' depends on axioms: [propext, Classical.choice, Quot.sound]
'Shellfish.Geom.C64_segment_false' depends on axioms: [propext, Classical.choice, Quot.sound]
'Shellfish.Interp.C65_bicubic_history' depends on axioms: [propext, Classical.choice, Quot.sound]
'Shellfish.Interp.C65_bicubic_grid' depends on axioms: [propext, Classical.choice, Quot.sound]
'Shellfish.Interp.C65_recovered_panic_false' depends on axioms: [propext, Classical.choice, Quot.sound]
'Shellfish.Interp.C65_tricubic_history' depends on axioms: [propext, Classical.choice, Quot.sound]
'Shellfish.Interp.C65_tricubic_grid' depends on axioms: [propext, Classical.choice, Quot.sound]
'Shellfish.Interp.C65_uniform_bicubic' depends on axioms: [propext, Classical.choice, Quot.sound]
'Shellfish.Interp.C65_uniform_tricubic' depends on axioms: [propext, Classical.choice, Quot.sound]
'Shellfish.Smooth.C66_savgol' depends on axioms: [propext, Classical.choice, Quot.sound]
'Shellfish.Smooth.C66_first_derivative' depends on axioms: [propext, Classical.choice, Quot.sound]
'Shellfish.Smooth.C66_derivative_partial' depends on axioms: [propext, Classical.choice, Quot.sound]
'Shellfish.Smooth.C66_least_squares' depends on axioms: [propext, Classical.choice, Quot.sound]
'Shellfish.Smooth.C66_convolve' depends on axioms: [propext, Classical.choice, Quot.sound]
'Shellfish.Smooth.C66_second_derivative_false' depends on axioms: [propext, Classical.choice, Quot.sound]
'Shellfish.Smooth.C66_short_target' depends on axioms: [propext, Quot.sound]
'Shellfish.Smooth.C67_power_law' depends on axioms: [propext, Classical.choice, Quot.sound]
'Shellfish.Smooth.C67_history_false' depends on axioms: [propext, Classical.choice, Quot.sound]
'Shellfish.Smooth.C67_short' depends on axioms: [propext, Classical.choice, Quot.sound]
'Shellfish.Smooth.C67_other_window' depends on axioms: [propext, Classical.choice, Quot.sound]
'Shellfish.Cmd.C68_transpose' depends on axioms: [propext, Classical.choice, Quot.sound]
'Shellfish.Cmd.C68_involution' depends on axioms: [propext, Classical.choice, Quot.sound]
'Shellfish.Cmd.C68_panic' depends on axioms: [propext, Quot.sound]
'Shellfish.Memo.C69_listed' depends on axioms: [propext, Classical.choice, Quot.sound]
'Shellfish.Memo.C69_generated' depends on axioms: [propext, Classical.choice, Quot.sound]
'Shellfish.Memo.C69_unknown' depends on axioms: [propext, Classical.choice, Quot.sound]
'Shellfish.Memo.C69_unknown_false' depends on axioms: [propext, Quot.sound]
'Shellfish.Memo.C69_radius_value' depends on axioms: [propext, Classical.choice, Quot.sound]
'Shellfish.Modes.C70_shell' depends on axioms: [propext, Classical.choice, Quot.sound]
'Shellfish.Modes.C70_id' depends on axioms: [propext, Classical.choice, Quot.sound]
'Shellfish.Modes.C70_stats' depends on axioms: [propext, Classical.choice, Quot.sound]
'Shellfish.Modes.C70_prof' depends on axioms: [propext, Classical.choice, Quot.sound]
'Shellfish.Modes.C70_phase' depends on axioms: [propext, Classical.choice, Quot.sound]
'Shellfish.Modes.C70_potential' depends on axioms: [propext, Classical.choice, Quot.sound]
'Shellfish.Modes.C70_check' depends on axioms: [propext, Classical.choice, Quot.sound]
'Shellfish.Modes.C70_unreadable' depends on axioms: [propext, Classical.choice, Quot.sound]
'Shellfish.Modes.C70_unchecked_false' depends on axioms: [propext, Classical.choice, Quot.sound]
'Shellfish.Modes.C70_window_false' depends on axioms: [propext, Classical.choice, Quot.sound]
'Shellfish.Modes.C70_masses_false' depends on axioms: [propext, Classical.choice, Quot.sound]
'Shellfish.Modes.C70_bins_false' depends on axioms: [propext, Classical.choice, Quot.sound]
'Shellfish.Modes.C70_nan_false' depends on axioms: [propext, Classical.choice, Quot.sound]
'Shellfish.Modes.C71_accepted_iff' depends on axioms: [propext, Classical.choice, Quot.sound]
'Shellfish.Modes.C71_settings' depends on axioms: [propext, Classical.choice, Quot.sound]
'Shellfish.Modes.C71_documented_partial' depends on axioms: [propext, Classical.choice, Quot.sound]
'Shellfish.Modes.C71_halos_unused' depends on axioms: [propext, Classical.choice, Quot.sound]
'Shellfish.Modes.C71_future_false' depends on axioms: [propext, Classical.choice, Quot.sound]
'Shellfish.Modes.C71_nil_false' depends on axioms: [propext, Classical.choice, Quot.sound]
'Shellfish.Modes.C71_tree_false' depends on axioms: [propext, Classical.choice, Quot.sound]
'Shellfish.Modes.C71_tree_unset_false' depends on axioms: [propext, Classical.choice, Quot.sound]
'Shellfish.Modes.C71_logging_false' depends on axioms: [propext, Classical.choice, Quot.sound]
'Shellfish.Analyze.C72_volume' depends on axioms: [propext, Classical.choice, Quot.sound]
'Shellfish.Analyze.C72_sphere' depends on axioms: [propext, Classical.choice, Quot.sound]
'Shellfish.Analyze.C72_monotone' depends on axioms: [propext, Classical.choice, Quot.sound]
'Shellfish.Analyze.C72_scaling' depends on axioms: [propext, Classical.choice, Quot.sound]
'Shellfish.Analyze.C72_range_partial' depends on axioms: [propext, Classical.choice, Quot.sound]
'Shellfish.Analyze.C72_range_false' depends on axioms: [propext, Classical.choice, Quot.sound]
'Shellfish.Analyze.C72_difference_partial' depends on axioms: [propext, Classical.choice, Quot.sound]
'Shellfish.Analyze.C72_difference_false' depends on axioms: [propext, Classical.choice, Quot.sound]
'Shellfish.Analyze.C72_max_difference' depends on axioms: [propext, Classical.choice, Quot.sound]
'Shellfish.Analyze.C72_contains' depends on axioms: [propext, Classical.choice, Quot.sound]
'Shellfish.Analyze.C72_cube' depends on axioms: [propext, Classical.choice, Quot.sound]
'Shellfish.Analyze.C72_area' depends on axioms: [propext, Classical.choice, Quot.sound]
'Shellfish.Analyze.C72_median_partial' depends on axioms: [propext, Classical.choice, Quot.sound]
'Shellfish.Analyze.C72_median_between' depends on axioms: [propext, Classical.choice, Quot.sound]
'Shellfish.Analyze.C72_histogram' depends on axioms: [propext, Classical.choice, Quot.sound]
'Shellfish.Analyze.C72_histogram_normed' depends on axioms: [propext, Classical.choice, Quot.sound]
'Shellfish.Analyze.C72_sphere_area' depends on axioms: [propext, Classical.choice, Quot.sound]
'Shellfish.Analyze.C73_counts' depends on axioms: [propext, Classical.choice, Quot.sound]
'Shellfish.Analyze.C73_fraction_partial' depends on axioms: [propext, Classical.choice, Quot.sound]
'Shellfish.Analyze.C73_beyond_false' depends on axioms: [propext, Classical.choice, Quot.sound]
'Shellfish.Analyze.C73_below_false' depends on axioms: [propext, Classical.choice, Quot.sound]
'Shellfish.Analyze.C74_inertia' depends on axioms: [propext, Classical.choice, Quot.sound]
'Shellfish.Analyze.C74_trisort_partial' depends on axioms: [propext, Classical.choice, Quot.sound]
'Shellfish.Analyze.C74_trisort_false' depends on axioms: [propext, Classical.choice, Quot.sound]
'Shellfish.Analyze.C74_lengths_partial' depends on axioms: [propext, Classical.choice, Quot.sound]
'Shellfish.Analyze.C74_direction_partial' depends on axioms: [propext, Classical.choice, Quot.sound]
'Shellfish.Analyze.C74_direction_false' depends on axioms: [propext, Classical.choice, Quot.sound]
'Shellfish.Analyze.C74_extent' depends on axioms: [propext, Classical.choice, Quot.sound]
'Shellfish.Analyze.C75_polynomial' depends on axioms: [propext, Classical.choice, Quot.sound]
'Shellfish.Analyze.C75_short' depends on axioms: [propext, Classical.choice, Quot.sound]
'Shellfish.Analyze.C75_periodic' depends on axioms: [propext, Classical.choice, Quot.sound]
'Shellfish.Analyze.C75_least_squares' depends on axioms: [propext, Classical.choice, Quot.sound]
'Shellfish.Analyze.C75_recovers' depends on axioms: [propext, Classical.choice, Quot.sound]
'Shellfish.Analyze.C75_determined' depends on axioms: [propext, Classical.choice, Quot.sound]
'Shellfish.Analyze.C75_few_points' depends on axioms: [propext, Classical.choice, Quot.sound]
'Shellfish.Analyze.C75_dependent' depends on axioms: [propext, Classical.choice, Quot.sound]
'Shellfish.Analyze.C75_singular_false' depends on axioms: [propext, Classical.choice, Quot.sound]
'Shellfish.Analyze.C75_no_points' depends on axioms: [propext, Classical.choice, Quot.sound]
'Shellfish.Analyze.C75_axis_false' depends on axioms: [propext, Classical.choice, Quot.sound]
'Shellfish.Analyze.C75_order' depends on axioms: [propext, Classical.choice, Quot.sound]
'Shellfish.Analyze.C75_fit_order' depends on axioms: [propext, Classical.choice, Quot.sound]
'Shellfish.Analyze.C75_volume_fit' depends on axioms: [propext, Classical.choice, Quot.sound]
'Shellfish.Kde.C76_kde' depends on axioms: [propext, Classical.choice, Quot.sound]
'Shellfish.Kde.C76_bins' depends on axioms: [propext, Classical.choice, Quot.sound]
'Shellfish.Kde.C76_bins_panic' depends on axioms: [propext, Classical.choice, Quot.sound]
'Shellfish.Kde.C76_maxes' depends on axioms: [propext, Classical.choice, Quot.sound]
'Shellfish.Kde.C76_tree' depends on axioms: [propext, Classical.choice, Quot.sound]
'Shellfish.Kde.C76_anchors' depends on axioms: [propext, Classical.choice, Quot.sound]
'Shellfish.Kde.C76_never_false' depends on axioms: [propext, Classical.choice, Quot.sound]
'Shellfish.Kde.C76_filter' depends on axioms: [propext, Classical.choice, Quot.sound]
'Shellfish.Kde.C76_filter_false' depends on axioms: [propext, Classical.choice, Quot.sound]
'Shellfish.Kde.C76_points' depends on axioms: [propext, Classical.choice, Quot.sound]
'Shellfish.Kde.C76_sublist' depends on axioms: [propext, Classical.choice, Quot.sound]
'Shellfish.Kde.C76_ok_false' depends on axioms: [propext, Classical.choice, Quot.sound]
'Shellfish.Kde.C77_clear' depends on axioms: [propext, Classical.choice, Quot.sound]
'Shellfish.Kde.C77_floor' depends on axioms: [propext, Classical.choice, Quot.sound]
'Shellfish.Kde.C77_splashback' depends on axioms: [propext, Classical.choice, Quot.sound]
'Shellfish.Kde.C77_volume' depends on axioms: [propext, Classical.choice, Quot.sound]
'Shellfish.Kde.C77_okCoords' depends on axioms: [propext, Classical.choice, Quot.sound]
'Shellfish.Kde.C77_usable' depends on axioms: [propext, Classical.choice, Quot.sound]
'Shellfish.Kde.C77_history' depends on axioms: [propext, Classical.choice, Quot.sound]
'Shellfish.Kde.C77_coeffs' depends on axioms: [propext, Classical.choice, Quot.sound]
'Shellfish.Stats.C78_one_file' depends on axioms: [propext, Classical.choice, Quot.sound]
'Shellfish.Stats.C78_one_file_ids' depends on axioms: [propext, Classical.choice, Quot.sound]
'Shellfish.Stats.C78_columns' depends on axioms: [propext, Classical.choice, Quot.sound]
'Shellfish.Stats.C78_test_partial' depends on axioms: [propext, Classical.choice, Quot.sound]
'Shellfish.Stats.C78_mass_partial' depends on axioms: [propext, Classical.choice, Quot.sound]
'Shellfish.Stats.C78_ids_partial' depends on axioms: [propext, Classical.choice, Quot.sound]
'Shellfish.Stats.C78_missed_false' depends on axioms: [propext, Classical.choice, Quot.sound]
'Shellfish.Stats.C78_first_row_false' depends on axioms: [propext, Classical.choice, Quot.sound]
'Shellfish.Stats.C78_range_false' depends on axioms: [propext, Classical.choice, Quot.sound]
'Shellfish.Stats.C78_wrap_false' depends on axioms: [propext, Classical.choice, Quot.sound]
'Shellfish.Stats.C78_width_false' depends on axioms: [propext, Classical.choice, Quot.sound]
'Shellfish.Stats.C78_rsp_false' depends on axioms: [propext, Classical.choice, Quot.sound]
'Shellfish.Potential.C79_insert' depends on axioms: [propext, Classical.choice, Quot.sound]
'Shellfish.Potential.C79_maps' depends on axioms: [propext, Classical.choice, Quot.sound]
'Shellfish.Potential.C79_potential_partial' depends on axioms: [propext, Classical.choice, Quot.sound]
'Shellfish.Potential.C79_coordinates_false' depends on axioms: [propext, Classical.choice, Quot.sound]
'Shellfish.Potential.C79_mirror_false' depends on axioms: [propext, Classical.choice, Quot.sound]
'Shellfish.Potential.C79_edge_false' depends on axioms: [propext, Classical.choice, Quot.sound]
'Shellfish.Potential.C79_default_false' depends on axioms: [propext, Classical.choice, Quot.sound]
'Shellfish.ShellRun.C80_lines_partial' depends on axioms: [propext, Classical.choice, Quot.sound]
'Shellfish.ShellRun.C80_rows_partial' depends on axioms: [propext, Classical.choice, Quot.sound]
'Shellfish.ShellRun.C80_threads' depends on axioms: [propext, Classical.choice, Quot.sound]
'Shellfish.ShellRun.C80_independent_partial' depends on axioms: [propext, Classical.choice, Quot.sound]
'Shellfish.ShellRun.C80_norms' depends on axioms: [propext, Classical.choice, Quot.sound]
'Shellfish.ShellRun.C80_norms_seed' depends on axioms: [propext, Classical.choice, Quot.sound]
'Shellfish.ShellRun.C80_cosmology_false' depends on axioms: [propext, Classical.choice, Quot.sound]
'Shellfish.ShellRun.C80_radius_false' depends on axioms: [propext, Classical.choice, Quot.sound]
'Shellfish.ShellRun.C80_marker_false' depends on axioms: [propext, Classical.choice, Quot.sound]
'Shellfish.Profiles.C81_percentile' depends on axioms: [propext, Classical.choice, Quot.sound]
'Shellfish.Profiles.C81_ordered' depends on axioms: [propext, Classical.choice, Quot.sound]
'Shellfish.Profiles.C81_half_partial' depends on axioms: [propext, Classical.choice, Quot.sound]
'Shellfish.Profiles.C81_reversed_false' depends on axioms: [propext, Classical.choice, Quot.sound]
'Shellfish.Profiles.C81_antitone' depends on axioms: [propext, Classical.choice, Quot.sound]
'Shellfish.Profiles.C81_median_partial' depends on axioms: [propext, Classical.choice, Quot.sound]
'Shellfish.Profiles.C81_mean' depends on axioms: [propext, Classical.choice, Quot.sound]
'Shellfish.Profiles.C81_transpose' depends on axioms: [propext, Classical.choice, Quot.sound]
'Shellfish.Profiles.C81_ragged_false' depends on axioms: [propext, Classical.choice, Quot.sound]
'Shellfish.Profiles.C81_run' depends on axioms: [propext, Classical.choice, Quot.sound]
'Shellfish.Profiles.C82_profile_partial' depends on axioms: [propext, Classical.choice, Quot.sound]
'Shellfish.Profiles.C82_reversed_false' depends on axioms: [propext, Classical.choice, Quot.sound]
'Shellfish.Profiles.C82_bootstrap' depends on axioms: [propext, Classical.choice, Quot.sound]
'Shellfish.Profiles.C82_bounded' depends on axioms: [propext, Classical.choice, Quot.sound]
'Shellfish.Profiles.C82_one_sample' depends on axioms: [propext, Classical.choice, Quot.sound]
'Shellfish.Profiles.C82_errors' depends on axioms: [propext, Classical.choice, Quot.sound]
'Shellfish.Profiles.C82_samples_false' depends on axioms: [propext, Classical.choice, Quot.sound]
'Shellfish.Profiles.C82_fractions_partial' depends on axioms: [propext, Classical.choice, Quot.sound]
'Shellfish.Modes.C83_default_partial' depends on axioms: [propext, Classical.choice, Quot.sound]
'Shellfish.Modes.C83_radius_false' depends on axioms: [propext, Classical.choice, Quot.sound]
'Shellfish.Check.C84_failures_partial' depends on axioms: [propext, Classical.choice, Quot.sound]
'Shellfish.Check.C84_passed_partial' depends on axioms: [propext, Classical.choice, Quot.sound]
'Shellfish.Check.C84_other_files_false' depends on axioms: [propext, Classical.choice, Quot.sound]
'Shellfish.Check.C84_zero_false' depends on axioms: [propext, Classical.choice, Quot.sound]
'Shellfish.Check.C84_edge_false' depends on axioms: [propext, Classical.choice, Quot.sound]
'Shellfish.Check.C84_far_false' depends on axioms: [propext, Classical.choice, Quot.sound]
'Shellfish.Main.C85_reported' depends on axioms: [propext, Classical.choice, Quot.sound]
'Shellfish.Main.C85_report_partial' depends on axioms: [propext, Classical.choice, Quot.sound]
'Shellfish.Main.C85_pipe_partial' depends on axioms: [propext, Classical.choice, Quot.sound]
'Shellfish.Main.C85_success' depends on axioms: [propext, Classical.choice, Quot.sound]
'Shellfish.Main.C85_feeds' depends on axioms: [propext, Classical.choice, Quot.sound]
'Shellfish.Main.C85_panic_false' depends on axioms: [propext, Classical.choice, Quot.sound]
'Shellfish.Main.C85_no_mode_false' depends on axioms: [propext, Classical.choice, Quot.sound]
'Shellfish.Main.C85_blank_false' depends on axioms: [propext, Classical.choice, Quot.sound]
'Shellfish.Main.C85_tree_type_false' depends on axioms: [propext]
'Shellfish.Main.C85_help_false' depends on axioms: [propext]
'Shellfish.Main.C85_unknown' depends on axioms: [propext, Classical.choice, Quot.sound]
'Shellfish.Main.C85_success_source' depends on axioms: [propext, Classical.choice, Quot.sound]
'Shellfish.Main.C85_unreadable' depends on axioms: [propext, Classical.choice, Quot.sound]
'Shellfish.Geom.C86_no_panic' depends on axioms: [propext, Classical.choice, Quot.sound]
'Shellfish.Geom.C86_corners' depends on axioms: [propext, Classical.choice, Quot.sound]
'Shellfish.Geom.C86_section' depends on axioms: [propext, Classical.choice, Quot.sound]
'Shellfish.Geom.C86_sides' depends on axioms: [propext, Classical.choice, Quot.sound]
'Shellfish.Geom.C86_ok_partial' depends on axioms: [propext, Classical.choice, Quot.sound]
'Shellfish.Geom.C86_direction_partial' depends on axioms: [propext, Classical.choice, Quot.sound]
'Shellfish.Geom.C86_lines_partial' depends on axioms: [propext, Classical.choice, Quot.sound]
'Shellfish.Geom.C86_angle_range' depends on axioms: [propext, Classical.choice, Quot.sound]
'Shellfish.Geom.C86_range_tight_partial' depends on axioms: [propext, Classical.choice, Quot.sound]
'Shellfish.Geom.C86_radii_partial' depends on axioms: [propext, Classical.choice, Quot.sound]
'Shellfish.Geom.C86_touch_false' depends on axioms: [propext, Classical.choice, Quot.sound]
'Shellfish.Geom.C86_small_false' depends on axioms: [propext, Classical.choice, Quot.sound]
'Shellfish.Geom.C86_range_false' depends on axioms: [propext, Classical.choice, Quot.sound]
'Shellfish.Geom.C86_corner_angle_false' depends on axioms: [propext, Classical.choice, Quot.sound]
'Shellfish.Geom.C86_radius_false' depends on axioms: [propext, Classical.choice, Quot.sound]
'Shellfish.Geom.C87_refused' depends on axioms: [propext, Classical.choice, Quot.sound]
'Shellfish.Geom.C87_through' depends on axioms: [propext, Classical.choice, Quot.sound]
'Shellfish.Geom.C87_exact' depends on axioms: [propext, Classical.choice, Quot.sound]
'Shellfish.Geom.C87_solve' depends on axioms: [propext, Classical.choice, Quot.sound]
'Shellfish.Geom.C87_solved_partial' depends on axioms: [propext, Classical.choice, Quot.sound]
'Shellfish.Geom.C87_none_iff' depends on axioms: [propext, Classical.choice, Quot.sound]
'Shellfish.Geom.C87_vertical_false' depends on axioms: [propext, Classical.choice, Quot.sound]
'Shellfish.Geom.C87_stale_false' depends on axioms: [propext, Classical.choice, Quot.sound]
'Shellfish.Geom.C87_ray_partial' depends on axioms: [propext, Classical.choice, Quot.sound]
'Shellfish.Geom.C87_ray_false' depends on axioms: [propext, Classical.choice, Quot.sound]
'Shellfish.Platonic.C88_sides' depends on axioms: [propext, Classical.choice, Quot.sound]
'Shellfish.Platonic.C88_faces' depends on axioms: [propext, Classical.choice, Quot.sound]
'Shellfish.Platonic.C88_unique_partial' depends on axioms: [propext, Classical.choice, Quot.sound]
'Shellfish.Platonic.C88_unique_false' depends on axioms: [propext, Classical.choice, Quot.sound]
'Shellfish.Platonic.C88_unique_count' depends on axioms: [propext, Classical.choice, Quot.sound]
'Shellfish.Analyze.C89_volume' depends on axioms: [propext, Classical.choice, Quot.sound]
'Shellfish.Analyze.C89_mean_radius' depends on axioms: [propext, Classical.choice, Quot.sound]
'Shellfish.Analyze.C89_cube' depends on axioms: [propext, Classical.choice, Quot.sound]
'Shellfish.Analyze.C89_penna' depends on axioms: [propext, Classical.choice, Quot.sound]
'Shellfish.ShellFile.C90_checked' depends on axioms: [propext, Classical.choice, Quot.sound]
'Shellfish.ShellFile.C90_written' depends on axioms: [propext, Classical.choice, Quot.sound]
'Shellfish.ShellFile.C90_stats_partial' depends on axioms: [propext, Classical.choice, Quot.sound]
'Shellfish.ShellFile.C90_dropped_false' depends on axioms: [propext, Classical.choice, Quot.sound]
'Shellfish.ShellFile.C90_skipped_false' depends on axioms: [propext, Classical.choice, Quot.sound]
'Shellfish.ShellFile.C90_lost' depends on axioms: [propext, Classical.choice, Quot.sound]
'Shellfish.Artio.C91_names' depends on axioms: [propext, Classical.choice, Quot.sound]
'Shellfish.Artio.C91_read_partial' depends on axioms: [propext, Classical.choice, Quot.sound]
'Shellfish.Artio.C91_exactly_once_partial' depends on axioms: [propext, Classical.choice, Quot.sound]
'Shellfish.Artio.C91_min_mass' depends on axioms: [propext, Classical.choice, Quot.sound]
'Shellfish.Artio.C91_header_partial' depends on axioms: [propext, Classical.choice, Quot.sound]
'Shellfish.Artio.C91_other_fileset_false' depends on axioms: [propext, Classical.choice, Quot.sound]
'Shellfish.Artio.C91_no_species_false' depends on axioms: [propext, Classical.choice, Quot.sound]
'Shellfish.Artio.C91_error_dropped_false' depends on axioms: [propext, Classical.choice, Quot.sound]
'Shellfish.Io.C92_lgadget2' depends on axioms: [propext, Classical.choice, Quot.sound]
'Shellfish.Io.C92_lgadget2_total' depends on axioms: [propext, Classical.choice, Quot.sound]
'Shellfish.Io.C92_gadget2' depends on axioms: [propext, Classical.choice, Quot.sound]
'Shellfish.Io.C92_gotetra' depends on axioms: [propext, Classical.choice, Quot.sound]
'Shellfish.Io.C92_bolshoi_min' depends on axioms: [propext, Quot.sound]
'Shellfish.Io.C92_bolshoi_mass' depends on axioms: [propext, Classical.choice, Quot.sound]
'Shellfish.Io.C92_bolshoiP_min_false' depends on axioms: [propext, Classical.choice, Quot.sound]
'Shellfish.Io.C92_bolshoi_count_false' depends on axioms: [propext, Classical.choice, Quot.sound]
'Shellfish.Io.C92_total_false' does not depend on any axioms
'Shellfish.Io.C92_gadget2_min_false' depends on axioms: [propext, Classical.choice, Quot.sound]
'Shellfish.ShellRun.C93_uniform' depends on axioms: [propext, Classical.choice, Quot.sound]
'Shellfish.ShellRun.C93_ends' depends on axioms: [propext, Classical.choice, Quot.sound]
'Shellfish.ShellRun.C93_isotropic' depends on axioms: [propext, Classical.choice, Quot.sound]
'Shellfish.MemoRuns.C94_safe' depends on axioms: [propext, Classical.choice, Quot.sound]
'Shellfish.MemoRuns.C94_reused' depends on axioms: [propext, Classical.choice, Quot.sound]
'Shellfish.MemoRuns.C94_refused' depends on axioms: [propext, Classical.choice, Quot.sound]
'Shellfish.MemoRuns.C94_again_partial' depends on axioms: [propext, Classical.choice, Quot.sound]
'Shellfish.MemoRuns.C94_interrupted_iff' depends on axioms: [propext, Classical.choice, Quot.sound]
'Shellfish.MemoRuns.C94_stuck_false' depends on axioms: [propext, Classical.choice, Quot.sound]
'Shellfish.MemoRuns.C94_race_false' depends on axioms: [propext, Classical.choice, Quot.sound]
'Shellfish.MemoRuns.C94_sequential_partial' depends on axioms: [propext, Classical.choice, Quot.sound]
'Shellfish.Round.C95_rounding' depends on axioms: [propext, Classical.choice, Quot.sound]
'Shellfish.Round.C95_grid_partial' depends on axioms: [propext, Classical.choice, Quot.sound]
'Shellfish.Round.C95_grid_bound' depends on axioms: [propext, Classical.choice, Quot.sound]
'Shellfish.Round.C95_grid_false' depends on axioms: [propext, Classical.choice, Quot.sound]
'Shellfish.Round.C95_ring_partial' depends on axioms: [propext, Classical.choice, Quot.sound]
'Shellfish.Round.C95_ring_false' depends on axioms: [propext, Classical.choice, Quot.sound]
'Shellfish.Round.C95_prof' depends on axioms: [propext, Classical.choice, Quot.sound]
'Shellfish.Round.C95_phase' depends on axioms: [propext, Classical.choice, Quot.sound]
'Shellfish.Round.C95_theta' depends on axioms: [propext, Classical.choice, Quot.sound]
'Shellfish.Round.C95_search_partial' depends on axioms: [propext, Classical.choice, Quot.sound]
'Shellfish.Round.C95_search_false' depends on axioms: [propext, Classical.choice, Quot.sound]
'Shellfish.Round.C95_uniform_range' depends on axioms: [propext, Classical.choice, Quot.sound]
'Shellfish.Round.C95_uniform_partial' depends on axioms: [propext, Classical.choice, Quot.sound]
'Shellfish.Round.C95_uniformInt_partial' depends on axioms: [propext, Classical.choice, Quot.sound]
'Shellfish.Round.C95_uniform_false' depends on axioms: [propext, Classical.choice, Quot.sound]
'Shellfish.Pipe.C96_shell' depends on axioms: [propext, Classical.choice, Quot.sound]
'Shellfish.Pipe.C96_stats' depends on axioms: [propext, Classical.choice, Quot.sound]
'Shellfish.Pipe.C96_prof_or' depends on axioms: [propext, Classical.choice, Quot.sound]
'Shellfish.Pipe.C96_prof' depends on axioms: [propext, Classical.choice, Quot.sound]
'Shellfish.Pipe.C96_angular' depends on axioms: [propext, Classical.choice, Quot.sound]
'Shellfish.Pipe.C96_phase' depends on axioms: [propext, Classical.choice, Quot.sound]
'Shellfish.Pipe.C96_potential' depends on axioms: [propext, Classical.choice, Quot.sound]
'Shellfish.Pipe.C96_coord' depends on axioms: [propext, Classical.choice, Quot.sound]
'Shellfish.Pipe.C96_pipe_example' depends on axioms: [propext, Classical.choice, Quot.sound]
'Shellfish.Pipe.C96_tree' depends on axioms: [propext, Classical.choice, Quot.sound]
'Shellfish.Pipe.C96_id' depends on axioms: [propext, Classical.choice, Quot.sound]
'Shellfish.Pipe.C96_pipe' depends on axioms: [propext, Classical.choice, Quot.sound]
'Shellfish.Pipe.C97_shell' depends on axioms: [propext, Classical.choice, Quot.sound]
'Shellfish.Pipe.C97_stats' depends on axioms: [propext, Classical.choice, Quot.sound]
'Shellfish.Pipe.C97_prof' depends on axioms: [propext, Classical.choice, Quot.sound]
'Shellfish.Pipe.C97_angular' depends on axioms: [propext, Classical.choice, Quot.sound]
'Shellfish.Pipe.C97_potential' depends on axioms: [propext, Classical.choice, Quot.sound]
'Shellfish.Pipe.C97_phase_partial' depends on axioms: [propext, Classical.choice, Quot.sound]
'Shellfish.Pipe.C97_phase_false' depends on axioms: [propext, Classical.choice, Quot.sound]
'Shellfish.Pipe.C97_phase_example' depends on axioms: [propext, Classical.choice, Quot.sound]
'Shellfish.Pipe.C98_order_false' depends on axioms: [propext, Classical.choice, Quot.sound]
'Shellfish.Pipe.C98_empty_stats_false' depends on axioms: [propext, Classical.choice, Quot.sound]
'Shellfish.Pipe.C98_order_larger' depends on axioms: [propext, Classical.choice, Quot.sound]
'Shellfish.Pipe.C98_shell_stats' depends on axioms: [propext, Classical.choice, Quot.sound]
'Shellfish.Pipe.C98_shell_prof' depends on axioms: [propext, Classical.choice, Quot.sound]
'Shellfish.Pipe.C98_prof_order_larger' depends on axioms: [propext, Classical.choice, Quot.sound]
'Shellfish.ShellRun.C99_alone' depends on axioms: [propext, Classical.choice, Quot.sound]
'Shellfish.ShellRun.C99_rows' depends on axioms: [propext, Classical.choice, Quot.sound]
'Shellfish.ShellRun.C99_threads' depends on axioms: [propext, Classical.choice, Quot.sound]
'Shellfish.ShellRun.C99_order' depends on axioms: [propext, Classical.choice, Quot.sound]
'Shellfish.Threads.C100_shell' depends on axioms: [propext, Quot.sound]
'Shellfish.Threads.C100_prof' depends on axioms: [propext, Quot.sound]
'Shellfish.Threads.C100_stats_partial' depends on axioms: [propext, Quot.sound]
'Shellfish.Threads.C100_stats_false' depends on axioms: [propext, Quot.sound]
'Shellfish.Par.C101_own_values' depends on axioms: [propext, Classical.choice, Quot.sound]
'Shellfish.Par.C101_joined' depends on axioms: [propext, Classical.choice, Quot.sound]
'Shellfish.Par.C101_collected' depends on axioms: [propext, Classical.choice, Quot.sound]
'Shellfish.Par.C101_two_partial' depends on axioms: [propext, Classical.choice, Quot.sound]
'Shellfish.Par.C101_exact_partial' depends on axioms: [propext, Classical.choice, Quot.sound]
'Shellfish.Par.C101_close' depends on axioms: [propext, Classical.choice, Quot.sound]
'Shellfish.Par.C101_masses_false' depends on axioms: [propext, Classical.choice, Quot.sound]
'Shellfish.Par.C101_ids_false' depends on axioms: [propext, Classical.choice, Quot.sound]
'Shellfish.Par.C101_threads_false' depends on axioms: [propext, Classical.choice, Quot.sound]
'Shellfish.Round.C102_box_partial' depends on axioms: [propext, Classical.choice, Quot.sound]
'Shellfish.Round.C102_drift_false' depends on axioms: [propext, Classical.choice, Quot.sound]
'Shellfish.Round.C102_missed_false' depends on axioms: [propext, Classical.choice, Quot.sound]
'Shellfish.Round.C103_exact' depends on axioms: [propext, Classical.choice, Quot.sound]
'Shellfish.Round.C103_rows_partial' depends on axioms: [propext, Classical.choice, Quot.sound]
'Shellfish.Round.C103_large_false' depends on axioms: [propext, Classical.choice, Quot.sound]
'Shellfish.Round.C103_hidden_false' depends on axioms: [propext, Classical.choice, Quot.sound]
'Shellfish.Round.C104_inner_partial' depends on axioms: [propext, Classical.choice, Quot.sound]
'Shellfish.Round.C104_grid_partial' depends on axioms: [propext, Classical.choice, Quot.sound]
'Shellfish.Round.C104_lost_false' depends on axioms: [propext, Classical.choice, Quot.sound]
'Shellfish.Round.C104_twice_false' depends on axioms: [propext, Classical.choice, Quot.sound]
'Shellfish.FloatText.C105_read' depends on axioms: [propext, Classical.choice, Quot.sound]
'Shellfish.FloatText.C105_error' depends on axioms: [propext, Classical.choice, Quot.sound]
'Shellfish.FloatText.C105_stable' depends on axioms: [propext, Classical.choice, Quot.sound]
'Shellfish.FloatText.C105_catalog' depends on axioms: [propext, Classical.choice, Quot.sound]
'Shellfish.Share.C106_complete' depends on axioms: [propext, Quot.sound]
'Shellfish.Share.C106_late_partial' depends on axioms: [propext, Quot.sound]
'Shellfish.Share.C106_zero_headers_false' depends on axioms: [propext, Classical.choice, Quot.sound]
'Shellfish.Share.C106_no_halos_false' depends on axioms: [propext, Classical.choice, Quot.sound]
'Shellfish.Share.C106_pipe' depends on axioms: [propext, Quot.sound]
'Shellfish.Share.C106_pipe_same' depends on axioms: [propext, Quot.sound]
'Shellfish.Share.C106_pipe_ends' depends on axioms: [propext, Classical.choice, Quot.sound]
'Shellfish.Share.C106_pipe_cache' depends on axioms: [propext, Quot.sound]
'Shellfish.Sort.C107_keeps' depends on axioms: [propext, Classical.choice, Quot.sound]
'Shellfish.Sort.C107_sorted' depends on axioms: [propext, Classical.choice, Quot.sound]
'Shellfish.Sort.C107_member' depends on axioms: [propext, Classical.choice, Quot.sound]
'Shellfish.Sort.C107_rank' depends on axioms: [propext, Classical.choice, Quot.sound]
'Shellfish.Sort.C107_nan_false' depends on axioms: [propext, Quot.sound]
'Shellfish.Round.C108_search_partial' depends on axioms: [propext, Classical.choice, Quot.sound]
'Shellfish.Round.C108_accuracy' depends on axioms: [propext, Classical.choice, Quot.sound]
'Shellfish.Round.C108_distances_partial' depends on axioms: [propext, Classical.choice, Quot.sound]
'Shellfish.Round.C108_radii' depends on axioms: [propext, Classical.choice, Quot.sound]
'Shellfish.Round.C108_radii_false' depends on axioms: [propext, Classical.choice, Quot.sound]
'Shellfish.Round.C108_tiny_false' depends on axioms: [propext, Classical.choice, Quot.sound]
'Shellfish.Sobol.C109_square' depends on axioms: [propext, Classical.choice, Quot.sound]
'Shellfish.Sobol.C109_first_and_other' depends on axioms: [propext, Classical.choice, Quot.sound]
'Shellfish.Sobol.C109_cube' depends on axioms: [propext, Classical.choice, Quot.sound]
'Shellfish.Sobol.C109_empty_boxes_false' depends on axioms: [propext, Classical.choice, Quot.sound]
'Shellfish.Analyze.C110_history' depends on axioms: [propext, Classical.choice, Quot.sound]
'Shellfish.Analyze.C110_range_partial' depends on axioms: [propext, Classical.choice, Quot.sound]
'Shellfish.Analyze.C110_oblate_false' depends on axioms: [propext, Classical.choice, Quot.sound]
'Shellfish.Analyze.C110_nodes_partial' depends on axioms: [propext, Classical.choice, Quot.sound]
'Shellfish.Analyze.C110_shapes' depends on axioms: [propext, Classical.choice, Quot.sound]
'Shellfish.Analyze.C110_flipped' depends on axioms: [propext, Classical.choice, Quot.sound]
'Shellfish.Analyze.C110_sphere_false' depends on axioms: [propext, Classical.choice, Quot.sound]
'Shellfish.Analyze.C110_elongated_false' depends on axioms: [propext, Classical.choice, Quot.sound]
'Shellfish.Analyze.C111_histogram' depends on axioms: [propext, Classical.choice, Quot.sound]
'Shellfish.Analyze.C111_fraction' depends on axioms: [propext, Classical.choice, Quot.sound]
'Shellfish.Analyze.C111_median' depends on axioms: [propext, Classical.choice, Quot.sound]
'Shellfish.Analyze.C111_range' depends on axioms: [propext, Classical.choice, Quot.sound]
'Shellfish.Analyze.C111_max_difference' depends on axioms: [propext, Classical.choice, Quot.sound]
'Shellfish.Round.C112_nan' depends on axioms: [propext, Classical.choice, Quot.sound]
'Shellfish.Round.C112_end_partial' depends on axioms: [propext, Classical.choice, Quot.sound]
'Shellfish.Round.C112_accuracy_partial' depends on axioms: [propext, Classical.choice, Quot.sound]
'Shellfish.Round.C112_endless' depends on axioms: [propext, Classical.choice, Quot.sound]
'Shellfish.Round.C112_line_false' depends on axioms: [propext, Classical.choice, Quot.sound]
'Shellfish.Round.C112_end_false' depends on axioms: [propext, Classical.choice, Quot.sound]
'Shellfish.Round.C113_nan_disk' depends on axioms: [propext, Classical.choice, Quot.sound]
'Shellfish.Round.C113_range_partial' depends on axioms: [propext, Classical.choice, Quot.sound]
'Shellfish.Round.C113_nan_false' depends on axioms: [propext, Classical.choice, Quot.sound]
'Shellfish.Round.C113_pole_false' depends on axioms: [propext, Classical.choice, Quot.sound]
'Shellfish.Round.C113_level_false' depends on axioms: [propext, Classical.choice, Quot.sound]
'Shellfish.Env.C114_distinct_partial' depends on axioms: [propext, Classical.choice, Quot.sound]
'Shellfish.Env.C114_adjacent_false' depends on axioms: [propext, Classical.choice, Quot.sound]
'Shellfish.Env.C114_scale_false' depends on axioms: [propext, Classical.choice, Quot.sound]
'Shellfish.Catalog.C115_cut' depends on axioms: [propext, Quot.sound]
'Shellfish.Catalog.C115_short_partial' depends on axioms: [propext, Classical.choice, Quot.sound]
'Shellfish.Catalog.C115_inner_partial' depends on axioms: [propext, Classical.choice, Quot.sound]
'Shellfish.Catalog.C115_broken_partial' depends on axioms: [propext, Classical.choice, Quot.sound]
'Shellfish.Catalog.C115_noticed_partial' depends on axioms: [propext, Classical.choice, Quot.sound]
'Shellfish.Catalog.C115_short_false' depends on axioms: [propext, Quot.sound]
'Shellfish.Catalog.C115_comment_false' depends on axioms: [propext, Quot.sound]
'Shellfish.Catalog.C115_unused_false' depends on axioms: [propext, Quot.sound]
'Shellfish.Round.C116_float64' depends on axioms: [propext, Classical.choice, Quot.sound]
'Shellfish.Round.C116_sine' depends on axioms: [propext, Classical.choice, Quot.sound]
'Shellfish.Round.C116_float32_partial' depends on axioms: [propext, Classical.choice, Quot.sound]
'Shellfish.Round.C116_normals' depends on axioms: [propext, Classical.choice, Quot.sound]
'Shellfish.Round.C116_axis_false' depends on axioms: [propext, Classical.choice, Quot.sound]
'Shellfish.Round.C117_nan' depends on axioms: [propext, Classical.choice, Quot.sound]
'Shellfish.Round.C117_accurate_partial' depends on axioms: [propext, Classical.choice, Quot.sound]
'Shellfish.Round.C117_equal_false' depends on axioms: [propext, Classical.choice, Quot.sound]
'Shellfish.Interp.C118_pointwise_partial' depends on axioms: [propext, Quot.sound]
'Shellfish.Interp.C118_fresh' depends on axioms: [propext, Quot.sound]
'Shellfish.Interp.C118_short' depends on axioms: [propext, Quot.sound]
'Shellfish.Interp.C118_tables' depends on axioms: [propext, Quot.sound]
'Shellfish.Interp.C118_made' depends on axioms: [propext, Classical.choice, Quot.sound]
'Shellfish.Interp.C118_spline_partial' depends on axioms: [propext, Classical.choice, Quot.sound]
'Shellfish.Interp.C118_shifted_false' depends on axioms: [propext, Classical.choice, Quot.sound]
'Shellfish.Interp.C118_table_false' depends on axioms: [propext, Classical.choice, Quot.sound]
'Shellfish.Interp.C118_ends_false' depends on axioms: [propext, Classical.choice, Quot.sound]
'Shellfish.Round.C119_long_partial' depends on axioms: [propext, Classical.choice, Quot.sound]
'Shellfish.Round.C119_miss_partial' depends on axioms: [propext, Classical.choice, Quot.sound]
'Shellfish.Round.C119_safe' depends on axioms: [propext, Classical.choice, Quot.sound]
'Shellfish.Round.C119_center_false' depends on axioms: [propext, Classical.choice, Quot.sound]
'Shellfish.Round.C119_once_partial' depends on axioms: [propext, Classical.choice, Quot.sound]
'Shellfish.Round.C119_once_false' depends on axioms: [propext, Classical.choice, Quot.sound]
'Shellfish.Round.C119_insert_partial' depends on axioms: [propext, Classical.choice, Quot.sound]
'Shellfish.Rand.C120_next' depends on axioms: [propext, Classical.choice, Quot.sound]
'Shellfish.Rand.C120_batch' depends on axioms: [propext, Classical.choice, Quot.sound]
'Shellfish.Rand.C120_uniform_partial' depends on axioms: [propext, Classical.choice, Quot.sound]
'Shellfish.Rand.C120_axes' depends on axioms: [propext, Classical.choice, Quot.sound]
'Shellfish.Rand.C120_uniformAt' depends on axioms: [propext, Classical.choice, Quot.sound]
'Shellfish.Rand.C120_int_partial' depends on axioms: [propext, Classical.choice, Quot.sound]
'Shellfish.Rand.C120_taus_partial' depends on axioms: [propext, Classical.choice, Quot.sound]
'Shellfish.Rand.C120_taus_batch' depends on axioms: [propext, Classical.choice, Quot.sound]
'Shellfish.Rand.C120_taus_false' depends on axioms: [propext, Classical.choice, Quot.sound]
'Shellfish.Rand.C120_uniform_false' depends on axioms: [propext, Classical.choice, Quot.sound]
'Shellfish.Rand.C120_int_false' depends on axioms: [propext, Classical.choice, Quot.sound]
'Shellfish.Round.C121_profile_partial' depends on axioms: [propext, Classical.choice, Quot.sound]
'Shellfish.Round.C121_threads_partial' depends on axioms: [propext, Classical.choice, Quot.sound]
'Shellfish.Round.C121_negative_false' depends on axioms: [propext, Classical.choice, Quot.sound]
'Shellfish.Round.C121_threads_false' depends on axioms: [propext, Classical.choice, Quot.sound]
'Shellfish.Round.C122_selected_partial' depends on axioms: [propext, Classical.choice, Quot.sound]
'Shellfish.Round.C122_subset' depends on axioms: [propext, Classical.choice, Quot.sound]
'Shellfish.Round.C122_rounding_false' depends on axioms: [propext, Classical.choice, Quot.sound]
'Shellfish.Round.C122_drift_false' depends on axioms: [propext, Classical.choice, Quot.sound]
'Shellfish.Round.C123_linear' depends on axioms: [propext, Classical.choice, Quot.sound]
'Shellfish.Round.C123_bilinear' depends on axioms: [propext, Classical.choice, Quot.sound]
'Shellfish.Round.C123_knots_false' depends on axioms: [propext, Classical.choice, Quot.sound]
'Shellfish.Rand.C124_words' depends on axioms: [propext, Classical.choice, Quot.sound]
'Shellfish.Rand.C124_consecutive' depends on axioms: [propext, Classical.choice, Quot.sound]
'Shellfish.Rand.C124_uniform' depends on axioms: [propext, Classical.choice, Quot.sound]
'Shellfish.Rand.C124_repeats' depends on axioms: [propext, Classical.choice, Quot.sound]
'Shellfish.Rand.C124_seeds' depends on axioms: [propext, Classical.choice, Quot.sound]
'Shellfish.Rand.C124_uniform64' depends on axioms: [propext, Classical.choice, Quot.sound]
'Shellfish.Rand.C124_normals' depends on axioms: [propext, Classical.choice, Quot.sound]
'Shellfish.Rand.C124_centre' depends on axioms: [propext, Classical.choice, Quot.sound]
'Shellfish.Rand.C124_normals64' depends on axioms: [propext, Classical.choice, Quot.sound]
'Shellfish.Round.C125_mass' depends on axioms: [propext, Classical.choice, Quot.sound]
'Shellfish.Round.C125_prof' depends on axioms: [propext, Classical.choice, Quot.sound]
'Shellfish.Round.C125_median' depends on axioms: [propext, Classical.choice, Quot.sound]
'Shellfish.Round.C125_phase' depends on axioms: [propext, Classical.choice, Quot.sound]
'Shellfish.Round.C125_speed' depends on axioms: [propext, Classical.choice, Quot.sound]
'Shellfish.Round.C126_prof' depends on axioms: [propext, Classical.choice, Quot.sound]
'Shellfish.Round.C126_phase' depends on axioms: [propext, Classical.choice, Quot.sound]
'Shellfish.Finder.C127_inside' depends on axioms: [propext, Classical.choice, Quot.sound]
'Shellfish.Finder.C127_convert' depends on axioms: [propext, Classical.choice, Quot.sound]
'Shellfish.Finder.C127_visited' depends on axioms: [propext, Classical.choice, Quot.sound]
'Shellfish.Finder.C127_sphere' depends on axioms: [propext, Classical.choice, Quot.sound]
'Shellfish.Finder.C127_outside_false' does not depend on any axioms
'Shellfish.Round.C128_radius' depends on axioms: [propext, Classical.choice, Quot.sound]
'Shellfish.Round.C128_contains' depends on axioms: [propext, Classical.choice, Quot.sound]
'Shellfish.Round.C128_centre' depends on axioms: [propext, Classical.choice, Quot.sound]
'Shellfish.Round.C128_order3' depends on axioms: [propext, Classical.choice, Quot.sound]
'Shellfish.Round.C128_pole_false' depends on axioms: [propext, Classical.choice, Quot.sound]
'Shellfish.Round.C129_range' depends on axioms: [propext, Classical.choice, Quot.sound]
'Shellfish.Round.C129_median' depends on axioms: [propext, Classical.choice, Quot.sound]
'Shellfish.Round.C129_mean' depends on axioms: [propext, Classical.choice, Quot.sound]
'Shellfish.Round.C129_volume' depends on axioms: [propext, Classical.choice, Quot.sound]
'Shellfish.Round.C130_counted' depends on axioms: [propext, Classical.choice, Quot.sound]
'Shellfish.Round.C130_centre' depends on axioms: [propext, Classical.choice, Quot.sound]
'Shellfish.Round.C130_mass' depends on axioms: [propext, Classical.choice, Quot.sound]
'Shellfish.Round.C130_inside_partial' depends on axioms: [propext, Classical.choice, Quot.sound]
'Shellfish.Round.C130_width_partial' depends on axioms: [propext, Classical.choice, Quot.sound]
'Shellfish.Round.C130_axis_false' depends on axioms: [propext, Classical.choice, Quot.sound]
'Shellfish.Round.C130_negative_false' depends on axioms: [propext, Classical.choice, Quot.sound]
'Shellfish.Round.C131_bound' depends on axioms: [propext, Classical.choice, Quot.sound]
'Shellfish.Round.C131_contained' depends on axioms: [propext, Classical.choice, Quot.sound]
'Shellfish.Round.C131_profile' depends on axioms: [propext, Classical.choice, Quot.sound]
'Shellfish.Round.C132_used' depends on axioms: [propext, Classical.choice, Quot.sound]
'Shellfish.Round.C132_potential_partial' depends on axioms: [propext, Classical.choice, Quot.sound]
'Shellfish.Round.C132_infinite_false' depends on axioms: [propext, Classical.choice, Quot.sound]
'Shellfish.Round.C133_phase_partial' depends on axioms: [propext, Classical.choice, Quot.sound]
'Shellfish.Round.C133_low_false' depends on axioms: [propext, Classical.choice, Quot.sound]
'Shellfish.SmoothRound.C134_smoothed' depends on axioms: [propext, Classical.choice, Quot.sound]
'Shellfish.SmoothRound.C134_steepest' depends on axioms: [propext, Classical.choice, Quot.sound]
'Shellfish.SmoothRound.C134_restored_false' depends on axioms: [propext, Classical.choice, Quot.sound]
'Shellfish.Smooth.C135_own_partial' depends on axioms: [propext, Classical.choice, Quot.sound]
'Shellfish.Smooth.C135_in_place_false' depends on axioms: [propext, Classical.choice, Quot.sound]
'Shellfish.Smooth.C135_slopes_false' depends on axioms: [propext, Classical.choice, Quot.sound]
'Shellfish.Smooth.C135_both_false' depends on axioms: [propext, Classical.choice, Quot.sound]
'Shellfish.Smooth.C135_stored' depends on axioms: [propext, Classical.choice, Quot.sound]
'Shellfish.Round.C136_trilinear_partial' depends on axioms: [propext, Classical.choice, Quot.sound]
'Shellfish.Round.C136_knots_partial' depends on axioms: [propext, Classical.choice, Quot.sound]
'Shellfish.Round.C136_third_false' depends on axioms: [propext, Classical.choice, Quot.sound]
'Shellfish.Round.C137_fraction_partial' depends on axioms: [propext, Classical.choice, Quot.sound]
'Shellfish.Round.C138_radius_partial' depends on axioms: [propext, Classical.choice, Quot.sound]
'Shellfish.Round.C138_mass_partial' depends on axioms: [propext, Classical.choice, Quot.sound]
'Shellfish.Round.C138_inverse_partial' depends on axioms: [propext, Classical.choice, Quot.sound]
'Shellfish.Round.C138_column_partial' depends on axioms: [propext, Classical.choice, Quot.sound]
'Shellfish.Round.C138_lengths_partial' depends on axioms: [propext, Classical.choice, Quot.sound]
'Shellfish.Round.C138_coord_partial' depends on axioms: [propext, Classical.choice, Quot.sound]
'Shellfish.Round.C139_rsp_partial' depends on axioms: [propext, Classical.choice, Quot.sound]
'Shellfish.Round.C139_columns_partial' depends on axioms: [propext, Classical.choice, Quot.sound]
'Shellfish.Round.C140_sphere_partial' depends on axioms: [propext, Classical.choice, Quot.sound]
'Shellfish.Round.C140_background_partial' depends on axioms: [propext, Classical.choice, Quot.sound]
'Shellfish.Round.C140_uniform_partial' depends on axioms: [propext, Classical.choice, Quot.sound]
'Shellfish.Round.C141_position_partial' depends on axioms: [propext, Classical.choice, Quot.sound]
'Shellfish.Round.C141_inside_false' depends on axioms: [propext, Classical.choice, Quot.sound]
'Shellfish.Round.C141_velocity_partial' depends on axioms: [propext, Classical.choice, Quot.sound]
'Shellfish.Round.C141_mass_partial' depends on axioms: [propext, Classical.choice, Quot.sound]
'Shellfish.Round.C142_bolshoi_position_partial' depends on axioms: [propext, Classical.choice, Quot.sound]
'Shellfish.Round.C142_bolshoi_order' depends on axioms: [propext, Classical.choice, Quot.sound]
'Shellfish.Round.C142_bolshoi_redshift_partial' depends on axioms: [propext, Classical.choice, Quot.sound]
'Shellfish.Round.C142_bolshoi_velocity_partial' depends on axioms: [propext, Classical.choice, Quot.sound]
'Shellfish.Round.C142_bolshoi_mass_partial' depends on axioms: [propext, Classical.choice, Quot.sound]
'Shellfish.Round.C142_artio_position_partial' depends on axioms: [propext, Classical.choice, Quot.sound]
'Shellfish.Round.C142_artio_width_partial' depends on axioms: [propext, Classical.choice, Quot.sound]
'Shellfish.Round.C142_artio_inside_partial' depends on axioms: [propext, Classical.choice, Quot.sound]
'Shellfish.Round.C142_artio_mass_partial' depends on axioms: [propext, Classical.choice, Quot.sound]
