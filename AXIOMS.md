# Axioms

Result of `#print axioms` for every theorem named in MANIFEST.json.

| Theorem | Axioms |
|---|---|
| `Verif.EqCatalog.C01_header_gate` | propext, Classical.choice, Quot.sound |
| `Verif.EqCatalog.C01_otherwise_refused` | propext, Classical.choice, Quot.sound |
| `Verif.EqCatalog.C02_accepted_ranges` | propext, Quot.sound |
| `Verif.EqCatalog.C03_possible_day_partial` | propext, Quot.sound |
| `Verif.EqCatalog.C03_possible_day_fails` | propext, Classical.choice, Quot.sound |
| `Verif.EqCatalog.C04_order_independent` | propext, Classical.choice, Quot.sound |
| `Verif.EqCatalog.C04_accepted_iff_valid` | propext, Classical.choice, Quot.sound |
| `Verif.EqCatalog.C05_optional_clean` | propext, Quot.sound |
| `Verif.EqCatalog.C05_optional_never_rejects` | propext, Classical.choice, Quot.sound |
| `Verif.EqCatalog.C06_sigmaMw_number` | propext, Quot.sound |
| `Verif.EqCatalog.C06_sigmaMw_nonneg` | propext, Classical.choice, Quot.sound |
| `Verif.EqCatalog.C07_ellipse_partial` | propext, Classical.choice, Quot.sound |
| `Verif.EqCatalog.C07_ellipse_fails` | propext, Classical.choice, Quot.sound |
| `Verif.EqCatalog.C08_validation_error_partial` | propext, Classical.choice, Quot.sound |
| `Verif.EqCatalog.C08_validation_error_fails` | propext, Classical.choice, Quot.sound |
| `Verif.EqCatalog.C09_line_number_partial` | propext, Classical.choice, Quot.sound |
| `Verif.EqCatalog.C09_line_number_fails` | propext, Classical.choice, Quot.sound |
| `Verif.EqCatalog.C10_all_or_nothing` | propext, Classical.choice, Quot.sound |
| `Verif.EqCatalog.C10_order_preserving` | propext, Quot.sound |
| `Verif.EqCatalog.C10_first_bad_row` | propext, Classical.choice, Quot.sound |
| `Verif.EqCatalog.C11_wrong_width_rejected` | propext, Classical.choice, Quot.sound |
| `Verif.Csv.C12_csv_round_trip` | propext, Classical.choice, Quot.sound |
| `Verif.Csv.C12_catalog_round_trip` | propext, Classical.choice, Quot.sound |
| `Verif.Csv.C13_stored_catalog_accepted_partial` | propext, Classical.choice, Quot.sound |
| `Verif.Csv.C13_same_entries_fails` | propext, Classical.choice, Quot.sound |
| `Verif.Declustering.C34_gk_mainshocks` | propext, Classical.choice, Quot.sound |
| `Verif.Declustering.C34_gk_succeeds` | propext, Quot.sound |
| `Verif.Declustering.C34_afteran_mainshocks` | propext, Classical.choice, Quot.sound |
| `Verif.Declustering.C34_afteran_succeeds` | propext, Classical.choice, Quot.sound |
| `Verif.Declustering.C35_gk_flag_cluster` | propext, Classical.choice, Quot.sound |
| `Verif.Declustering.C35_afteran_flag_cluster` | propext, Classical.choice, Quot.sound |
| `Verif.Declustering.C36_gk_windows` | propext, Classical.choice, Quot.sound |
| `Verif.Declustering.C37_at_most_one_kept_partial` | propext, Classical.choice, Quot.sound |
| `Verif.Declustering.C37_one_kept_fails` | propext, Classical.choice, Quot.sound |
| `Verif.Declustering.C38_gk_nonempty` | propext, Classical.choice, Quot.sound |
| `Verif.Declustering.C38_afteran_nonempty` | propext, Classical.choice, Quot.sound |
| `Verif.Declustering.C39_largest_survives_partial` | propext, Classical.choice, Quot.sound |
| `Verif.Declustering.C39_symmetric_windows_partial` | propext, Classical.choice, Quot.sound |
| `Verif.Declustering.C39_largest_survives_fails` | propext, Classical.choice, Quot.sound |
| `Verif.Declustering.C40_gk_idempotent` | propext, Classical.choice, Quot.sound |
| `Verif.Declustering.C41_gk_equivariant` | propext, Classical.choice, Quot.sound |
| `Verif.Declustering.C41_afteran_equivariant` | propext, Classical.choice, Quot.sound |
| `Verif.Declustering.C42_afteran_clusters` | propext, Classical.choice, Quot.sound |
| `Verif.Declustering.C43_afteran_mainshock_largest` | propext, Classical.choice, Quot.sound |
| `Verif.Declustering.C44_afteran_chain` | propext, Classical.choice, Quot.sound |
| `Verif.Declustering.C45_afteran_distance_partial` | propext, Classical.choice, Quot.sound |
| `Verif.Declustering.C45_afteran_distance_fails` | propext, Classical.choice, Quot.sound |
| `Verif.Declustering.C46_gk_isolated` | propext, Classical.choice, Quot.sound |
| `Verif.Declustering.C46_afteran_isolated_partial` | propext, Classical.choice, Quot.sound |
| `Verif.Declustering.C46_afteran_isolated_fails` | propext, Classical.choice, Quot.sound |
| `Verif.Declustering.C47_windows_positive` | propext, Classical.choice, Quot.sound |
| `Verif.Declustering.C47_windows_grow_partial` | propext, Classical.choice, Quot.sound |
| `Verif.Declustering.C47_gk_time_fails` | propext, Classical.choice, Quot.sound |
| `Verif.CatUtil.C48_integer_part` | propext, Classical.choice, Quot.sound |
| `Verif.CatUtil.C48_order` | propext, Classical.choice, Quot.sound |
| `Verif.CatUtil.C49_great_circle` | propext, Classical.choice, Quot.sound |
| `Verif.CatUtil.C49_symmetric` | propext, Classical.choice, Quot.sound |
| `Verif.CatUtil.C49_self` | propext, Classical.choice, Quot.sound |
| `Verif.CatUtil.C49_zero_iff` | propext, Classical.choice, Quot.sound |
| `Verif.CatUtil.C49_range` | propext, Classical.choice, Quot.sound |
| `Verif.CatUtil.C49_defined` | propext, Classical.choice, Quot.sound |
| `Verif.CatUtil.C49_triangle` | propext, Classical.choice, Quot.sound |
| `Verif.CatUtil.C50_day_count_partial` | propext, Classical.choice, Quot.sound |
| `Verif.CatUtil.C50_day_count_fails` | propext, Classical.choice, Quot.sound |
| `Verif.Completeness.C27_selection` | propext, Classical.choice, Quot.sound |
| `Verif.Completeness.C27_row_order` | propext, Classical.choice, Quot.sound |
| `Verif.Completeness.C28_removed_incomplete` | propext, Classical.choice, Quot.sound |
| `Verif.Completeness.C28_stepp_removed_incomplete` | propext, Classical.choice, Quot.sound |
| `Verif.Completeness.C29_kept_complete_partial` | propext, Classical.choice, Quot.sound |
| `Verif.Completeness.C29_kept_complete_fails` | propext, Classical.choice, Quot.sound |
| `Verif.Completeness.C51_magnitudes` | propext, Classical.choice, Quot.sound |
| `Verif.Completeness.C52_years` | propext, Classical.choice, Quot.sound |
| `Verif.Completeness.C52_whole_years` | propext, Classical.choice, Quot.sound |
| `Verif.Completeness.C53_lock_monotone` | propext, Classical.choice, Quot.sound |
| `Verif.Completeness.C54_counts_partial` | propext, Classical.choice, Quot.sound |
| `Verif.Completeness.C54_counts_fails` | propext, Classical.choice, Quot.sound |
| `Verif.Completeness.C55_succeeds` | propext, Classical.choice, Quot.sound |
| `Verif.Completeness.C56_last_location_partial` | propext, Classical.choice, Quot.sound |
| `Verif.Completeness.C56_last_location_fails` | propext, Classical.choice, Quot.sound |
| `Verif.Recurrence.C57_recurrence_table` | propext, Classical.choice, Quot.sound |
| `Verif.Recurrence.C58_b_value` | propext, Classical.choice, Quot.sound |
| `Verif.Recurrence.C58_value` | propext, Classical.choice, Quot.sound |
| `Verif.Recurrence.C59_average` | propext, Classical.choice, Quot.sound |
| `Verif.Recurrence.C59_errors` | propext, Classical.choice, Quot.sound |
| `Verif.Recurrence.C59_periods` | propext, Classical.choice, Quot.sound |
| `Verif.Recurrence.C60_counts` | propext, Classical.choice, Quot.sound |
| `Verif.Recurrence.C61_concave` | propext, Classical.choice, Quot.sound |
| `Verif.Recurrence.C61_prepared` | propext, Classical.choice, Quot.sound |
| `Verif.Recurrence.C62_first_stable` | propext, Quot.sound |
| `Verif.Recurrence.C62_likelihood` | propext, Classical.choice, Quot.sound |
| `Verif.Recurrence.C63_increasing_likelihood_partial` | propext, Classical.choice, Quot.sound |
| `Verif.Recurrence.C63_first_step_partial` | propext, Classical.choice, Quot.sound |
| `Verif.Recurrence.C63_weichert_terminates_partial` | propext, Classical.choice, Quot.sound |
| `Verif.Recurrence.C63_weichert_terminates_fails` | propext, Classical.choice, Quot.sound |
| `Verif.Recurrence.C63_nothing_complete` | propext, Classical.choice, Quot.sound |
| `Verif.Recurrence.C64_rate` | propext, Classical.choice, Quot.sound |
| `Verif.Recurrence.C64_reference` | propext, Classical.choice, Quot.sound |
| `Verif.MaxMag.C65_distribution_partial` | propext, Classical.choice, Quot.sound |
| `Verif.MaxMag.C65_distribution_fails` | propext, Classical.choice, Quot.sound |
| `Verif.MaxMag.C66_accuracy_partial` | propext, Classical.choice, Quot.sound |
| `Verif.MaxMag.C66_bound_partial` | propext, Classical.choice, Quot.sound |
| `Verif.MaxMag.C66_accuracy_fails` | propext, Classical.choice, Quot.sound |
| `Verif.MaxMag.C66_far_fails` | propext, Classical.choice, Quot.sound |
| `Verif.MaxMag.C67_spaced_points` | propext, Classical.choice, Quot.sound |
| `Verif.MaxMag.C68_integral_partial` | propext, Classical.choice, Quot.sound |
| `Verif.MaxMag.C68_integral_fails` | propext, Classical.choice, Quot.sound |
| `Verif.MaxMag.C69_terminates` | propext, Classical.choice, Quot.sound |
| `Verif.MaxMag.C69_terminates_real` | propext, Classical.choice, Quot.sound |
| `Verif.MaxMag.C70_not_below_observed_partial` | propext, Classical.choice, Quot.sound |
| `Verif.MaxMag.C70_not_below_observed_fails` | propext, Classical.choice, Quot.sound |
| `Verif.MaxMag.C71_silverman_partial` | propext, Classical.choice, Quot.sound |
| `Verif.MaxMag.C71_silverman_fails` | propext, Classical.choice, Quot.sound |
| `Verif.MaxMag.C72_moment_accounting` | propext, Classical.choice, Quot.sound |
| `Verif.MaxMag.C72_order_independent` | propext, Classical.choice, Quot.sound |
| `Verif.MaxMag.C72_single_year` | propext, Classical.choice, Quot.sound |
| `Verif.MaxMag.C73_exact_partial` | propext, Classical.choice, Quot.sound |
| `Verif.MaxMag.C73_exact_fails` | propext, Classical.choice, Quot.sound |
| `Verif.MaxMag.C73_exact_without_errors` | propext, Classical.choice, Quot.sound |
| `Verif.MaxMag.C74_known_algorithm_partial` | propext, Classical.choice, Quot.sound |
| `Verif.MaxMag.C74_unknown_algorithm_fails` | propext, Quot.sound |
| `Verif.MaxMag.C74_unknown_algorithm_result` | propext, Classical.choice, Quot.sound |
| `Verif.MaxMag.C74_unknown_recurrence_fails` | propext, Classical.choice, Quot.sound |
| `Verif.Workflow.C74_run_zero` | propext, Classical.choice, Quot.sound |
| `Verif.Workflow.C74_run_mle` | propext, Classical.choice, Quot.sound |
| `Verif.Fault.C75_fault_validation` | propext, Classical.choice, Quot.sound |
| `Verif.Fault.mkFault_spec` | propext, Classical.choice, Quot.sound |
| `Verif.Fault.C76_dimensions` | propext, Classical.choice, Quot.sound |
| `Verif.Fault.C77_length` | propext, Classical.choice, Quot.sound |
| `Verif.Fault.C77_direction` | propext, Classical.choice, Quot.sound |
| `Verif.Fault.C77_split` | propext, Classical.choice, Quot.sound |
| `Verif.Fault.C77_end_points` | propext, Classical.choice, Quot.sound |
| `Verif.Fault.C78_region_validation` | propext, Classical.choice, Quot.sound |
| `Verif.Fault.C78_first_values` | propext, Classical.choice, Quot.sound |
| `Verif.Fault.C78_missing_entry` | propext, Classical.choice, Quot.sound |
| `Verif.Fault.C79_defaults` | propext, Classical.choice, Quot.sound |
| `Verif.Fault.C79_overrides` | propext, Classical.choice, Quot.sound |
| `Verif.Fault.C79_no_keyError` | propext |
| `Verif.Fault.C79_unknown` | propext |
| `Verif.Fault.C80_positive` | propext, Classical.choice, Quot.sound |
| `Verif.Fault.C81_telescope` | propext, Classical.choice, Quot.sound |
| `Verif.Fault.C81_whole_bins` | propext, Classical.choice, Quot.sound |
| `Verif.Fault.C82_refused` | propext |
| `Verif.Fault.C82_proportional` | propext, Classical.choice, Quot.sound |
| `Verif.Nrml.C83_python_partial` | propext, Classical.choice, Quot.sound |
| `Verif.Nrml.C83_same_list_partial` | propext, Classical.choice, Quot.sound |
| `Verif.Nrml.C83_round_trip_partial` | propext, Classical.choice, Quot.sound |
| `Verif.Nrml.C83_writer_accepts` | propext, Quot.sound |
| `Verif.Nrml.C83_fails` | propext, Classical.choice, Quot.sound |
| `Verif.Nrml.C83_empty_list_unreadable` | propext, Classical.choice, Quot.sound |
| `Verif.Nrml.C84_stable` | propext, Classical.choice, Quot.sound |
| `Verif.Nrml.C84_python` | propext, Classical.choice, Quot.sound |
| `Verif.Nrml.C85_count` | propext |
| `Verif.Nrml.C85_document_order` | propext, Quot.sound |
| `Verif.Nrml.C85_closing_order` | propext |
| `Verif.Nrml.C85_others_ignored` | propext, Quot.sound |
| `Verif.Nrml.C86_odd_refused` | propext, Classical.choice, Quot.sound |
| `Verif.Nrml.C86_pairs` | propext, Classical.choice, Quot.sound |
| `Verif.Nrml.C86_even_accepted` | propext, Quot.sound |
| `Verif.Nrml.C87_directory_partial` | propext, Classical.choice, Quot.sound |
| `Verif.Nrml.C87_root_partial` | propext, Classical.choice, Quot.sound |
| `Verif.Nrml.C87_fails` | propext, Classical.choice, Quot.sound |
| `Verif.Nrml.C87_bare_name_refused` | propext, Quot.sound |
| `Verif.Nrml.C89_readable_partial` | propext, Classical.choice, Quot.sound |
| `Verif.Nrml.C89_only_first_rate_model` | propext, Quot.sound |
| `Verif.Nrml.C89_fails` | propext, Classical.choice, Quot.sound |
| `Verif.Nrml.C90_valid_partial` | propext, Classical.choice, Quot.sound |
| `Verif.Nrml.C90_document_partial` | propext, Classical.choice, Quot.sound |
| `Verif.Nrml.C90_conforms_partial` | propext, Classical.choice, Quot.sound |
| `Verif.Nrml.C90_default_not_valid` | propext, Classical.choice, Quot.sound |
| `Verif.Nrml.C90_default_identifiers` | propext, Classical.choice, Quot.sound |
| `Verif.Workflow.C14_matrix` | propext, Classical.choice, Quot.sound |
| `Verif.Workflow.C15_defaults_select_all` | propext, Classical.choice, Quot.sound |
| `Verif.Workflow.C15_accepted_catalogue` | propext, Classical.choice, Quot.sound |
| `Verif.Workflow.C15_empty_catalogue` | propext |
| `Verif.Workflow.C16_preprocessing` | propext, Classical.choice, Quot.sound |
| `Verif.Workflow.C16_processing` | propext, Classical.choice, Quot.sound |
| `Verif.Workflow.C16_names` | propext, Classical.choice, Quot.sound |
| `Verif.Workflow.C17_refused` | propext, Classical.choice, Quot.sound |
| `Verif.Workflow.C18_concatenation` | propext, Classical.choice, Quot.sound |
| `Verif.Workflow.C18_in_order` | propext, Classical.choice, Quot.sound |
| `Verif.Workflow.C18_stops` | propext, Classical.choice, Quot.sound |
| `Verif.Workflow.C19_once_in_order` | propext, Classical.choice, Quot.sound |
| `Verif.Workflow.C19_own_events` | propext, Quot.sound |
| `Verif.Workflow.C19_multiplicity` | propext, Quot.sound |
| `Verif.Workflow.C19_default_source` | propext, Quot.sound |
| `Verif.Workflow.C20_disabled` | propext, Classical.choice, Quot.sound |
| `Verif.Workflow.C26_stored` | propext, Classical.choice, Quot.sound |
| `Verif.Workflow.C26_contents` | propext, Classical.choice, Quot.sound |
| `Verif.Workflow.C26_kept` | propext, Quot.sound |
| `Verif.Workflow.C26_run` | propext, Classical.choice, Quot.sound |
| `Verif.Workflow.C21_only_parameters` | propext, Classical.choice, Quot.sound |
| `Verif.Workflow.C21_without_recurrence` | propext, Classical.choice, Quot.sound |
| `Verif.Workflow.C21_without_maximum` | propext, Classical.choice, Quot.sound |
| `Verif.Workflow.C21_minimum_magnitude` | propext, Classical.choice, Quot.sound |
| `Verif.Workflow.C22_commute` | propext, Classical.choice, Quot.sound |
| `Verif.Workflow.C22_run` | propext, Classical.choice, Quot.sound |
| `Verif.Workflow.C23_alone_partial` | propext, Classical.choice, Quot.sound |
| `Verif.Workflow.C23_split_partial` | propext, Classical.choice, Quot.sound |
| `Verif.Workflow.C23_order_partial` | propext, Classical.choice, Quot.sound |
| `Verif.Workflow.C23_fails` | propext, Classical.choice, Quot.sound |
| `Verif.Table.C32_round_trip` | propext, Classical.choice, Quot.sound |
| `Verif.Table.C32_error` | propext, Classical.choice, Quot.sound |
| `Verif.Table.C32_stable` | propext, Classical.choice, Quot.sound |
| `Verif.Table.C32_exact` | propext, Classical.choice, Quot.sound |
| `Verif.Table.C32_empty` | propext, Quot.sound |
| `Verif.Workflow.C32_jobs` | propext, Classical.choice, Quot.sound |
| `Verif.Workflow.C33_run` | propext, Classical.choice, Quot.sound |
| `Verif.Workflow.C33_observable` | propext, Classical.choice, Quot.sound |
| `Verif.MaxMag.C33_reproducible` | propext |
| `Verif.Workflow.C88_written` | propext, Classical.choice, Quot.sound |
| `Verif.Workflow.C88_result_document` | propext, Classical.choice, Quot.sound |
| `Verif.Workflow.C24_fails` | propext, Classical.choice, Quot.sound |
| `Verif.Workflow.C24_empty_zone_raises` | propext, Classical.choice, Quot.sound |
| `Verif.Workflow.C24_program_aborts` | propext, Classical.choice, Quot.sound |
| `Verif.Workflow.C24_kept_partial` | propext, Classical.choice, Quot.sound |
| `Verif.Workflow.C25_fails` | propext, Classical.choice, Quot.sound |
| `Verif.Workflow.C25_no_sources_raises` | propext, Quot.sound |
| `Verif.Workflow.C25_reader_partial` | propext, Quot.sound |
| `Verif.Workflow.C30_fails` | propext, Classical.choice, Quot.sound |
| `Verif.Workflow.C30_selection_raises` | propext, Classical.choice, Quot.sound |
| `Verif.Workflow.C30_chained_partial` | propext, Classical.choice, Quot.sound |
| `Verif.Workflow.C31_fails` | propext, Classical.choice, Quot.sound |
| `Verif.Workflow.C31_equivalent_partial` | propext, Classical.choice, Quot.sound |
| `Verif.Completeness.C91_stepp` | propext, Classical.choice, Quot.sound |
| `Verif.Recurrence.C91_recurrence` | propext, Classical.choice, Quot.sound |
| `Verif.MaxMag.C92_order_partial` | propext, Classical.choice, Quot.sound |
| `Verif.MaxMag.C92_order_fails` | propext, Classical.choice, Quot.sound |
| `Verif.Completeness.C93_stepp` | propext, Classical.choice, Quot.sound |
| `Verif.Recurrence.C93_recurrence` | propext, Classical.choice, Quot.sound |
| `Verif.Recurrence.C94_mle` | propext, Classical.choice, Quot.sound |
| `Verif.Recurrence.C94_weichert` | propext, Classical.choice, Quot.sound |
| `Verif.Workflow.C95_only_outputs` | propext, Classical.choice, Quot.sound |
| `Verif.Workflow.C95_result_last` | propext, Classical.choice, Quot.sound |
| `Verif.Workflow.C96_inputs` | propext, Classical.choice, Quot.sound |
| `Verif.Workflow.C97_rerun` | propext, Classical.choice, Quot.sound |
| `Verif.Console.C98_understood` | propext, Classical.choice, Quot.sound |
| `Verif.Console.C99_stray` | propext, Classical.choice, Quot.sound |
| `Verif.Console.C99_info` | propext, Classical.choice, Quot.sound |
| `Verif.Console.C99_no_arguments` | propext, Classical.choice, Quot.sound |
| `Verif.Console.C99_no_effect` | propext, Classical.choice, Quot.sound |
| `Verif.Console.C100_missing_partial` | propext, Classical.choice, Quot.sound |
| `Verif.Console.C100_fails` | propext, Classical.choice, Quot.sound |
| `Verif.Console.C101_no_file_partial` | propext, Classical.choice, Quot.sound |
| `Verif.Console.C101_fails` | propext, Classical.choice, Quot.sound |
| `Verif.Console.C102_only_outputs` | propext, Classical.choice, Quot.sound |
| `Verif.CatUtil.C103_matrix` | propext, Classical.choice, Quot.sound |
| `Verif.CatUtil.C103_pairs` | propext, Quot.sound |
| `Verif.CatUtil.C103_radians` | propext, Quot.sound |
| `Verif.CatUtil.C103_scalar` | propext |
| `Verif.CatUtil.C103_transpose` | propext, Classical.choice, Quot.sound |
| `Verif.CatUtil.C104_missing_latitude_partial` | propext, Quot.sound |
| `Verif.CatUtil.C104_first_set_partial` | propext, Quot.sound |
| `Verif.CatUtil.C104_fails` | propext, Classical.choice, Quot.sound |
| `Verif.Declustering.C105_gardner_knopoff` | propext, Classical.choice, Quot.sound |
| `Verif.Declustering.C105_afteran` | propext, Classical.choice, Quot.sound |
| `Verif.Declustering.C105_displacements` | propext, Classical.choice, Quot.sound |
| `Verif.Completeness.C106_stepp` | propext, Classical.choice, Quot.sound |
| `Verif.Recurrence.C106_mle_partial` | propext, Classical.choice, Quot.sound |
| `Verif.Recurrence.C106_weichert_partial` | propext, Classical.choice, Quot.sound |
| `Verif.Recurrence.C106_fails` | propext, Classical.choice, Quot.sound |
| `Verif.MaxMag.C106_kijko` | propext, Classical.choice, Quot.sound |
| `Verif.MaxMag.C106_cumulative_moment` | propext, Classical.choice, Quot.sound |
| `Verif.MaxMag.C106_maximum_magnitude` | propext, Classical.choice, Quot.sound |
| `Verif.Declustering.C107_no_foreshocks` | propext, Classical.choice, Quot.sound |
| `Verif.Declustering.C107_simultaneous` | propext, Classical.choice, Quot.sound |
| `Verif.Declustering.C107_negative` | propext, Classical.choice, Quot.sound |
| `Verif.Recurrence.C108_mle_partial` | propext, Classical.choice, Quot.sound |
| `Verif.Recurrence.C108_weichert_partial` | propext, Classical.choice, Quot.sound |
| `Verif.Recurrence.C108_weichert_fails` | propext, Classical.choice, Quot.sound |
| `Verif.MaxMag.C109_largest_only` | propext, Classical.choice, Quot.sound |
| `Verif.Workflow.C110_raises_partial` | propext, Classical.choice, Quot.sound |
| `Verif.Workflow.C110_nothing_written_partial` | propext, Classical.choice, Quot.sound |
| `Verif.Workflow.C110_fails` | propext, Classical.choice, Quot.sound |
| `Verif.Workflow.C111_unrequested` | propext, Classical.choice, Quot.sound |
| `Verif.Workflow.C111_algorithm` | propext, Classical.choice, Quot.sound |
| `Verif.Workflow.C112_raises_partial` | propext, Classical.choice, Quot.sound |
| `Verif.Workflow.C112_at_start_partial` | propext, Classical.choice, Quot.sound |
| `Verif.Workflow.C112_nothing_written_partial` | propext, Classical.choice, Quot.sound |
| `Verif.Workflow.C112_fails` | propext, Classical.choice, Quot.sound |
| `Verif.Fault.C113_balance` | propext, Classical.choice, Quot.sound |
| `Verif.Fault.C113_accuracy` | propext, Classical.choice, Quot.sound |
| `Verif.Fault.C113_below_supply` | propext, Classical.choice, Quot.sound |
| `Verif.Fault.C114_below_supply_partial` | propext, Classical.choice, Quot.sound |
| `Verif.Fault.C114_centres_partial` | propext, Classical.choice, Quot.sound |
| `Verif.Fault.C114_fails` | propext, Classical.choice, Quot.sound |
| `Verif.Declustering.C115_gk_no_kept_pair` | propext, Classical.choice, Quot.sound |
| `Verif.Declustering.C116_next_largest_partial` | propext, Classical.choice, Quot.sound |
| `Verif.Declustering.C116_fails` | propext, Classical.choice, Quot.sound |
| `Verif.Declustering.C117_afteran_idempotent_partial` | propext, Classical.choice, Quot.sound |
| `Verif.Declustering.C117_fails` | propext, Classical.choice, Quot.sound |
| `Verif.Completeness.C118_lock_partial` | propext, Classical.choice, Quot.sound |
| `Verif.Completeness.C118_located_partial` | propext, Classical.choice, Quot.sound |
| `Verif.Completeness.C118_fails` | propext, Classical.choice, Quot.sound |
| `Verif.Recurrence.C119_weichert_partial` | propext, Classical.choice, Quot.sound |
| `Verif.Recurrence.C119_weichert_fails` | propext, Classical.choice, Quot.sound |
| `Verif.Recurrence.C119_mle_partial` | propext, Classical.choice, Quot.sound |
| `Verif.Recurrence.C119_mle_fails` | propext, Classical.choice, Quot.sound |
| `Verif.Recurrence.C120_balance` | propext, Classical.choice, Quot.sound |
| `Verif.Recurrence.C121_down_partial` | propext, Classical.choice, Quot.sound |
| `Verif.Recurrence.C121_locked_partial` | propext, Classical.choice, Quot.sound |
| `Verif.Recurrence.C121_fails` | propext, Classical.choice, Quot.sound |
| `Verif.Declustering.C122_gardner_knopoff_partial` | propext, Classical.choice, Quot.sound |
| `Verif.Declustering.C122_afteran_partial` | propext, Classical.choice, Quot.sound |
| `Verif.Declustering.C122_fails` | propext, Classical.choice, Quot.sound |
| `Verif.Completeness.C123_filter` | propext, Classical.choice, Quot.sound |
| `Verif.Recurrence.C123_mle_partial` | propext, Classical.choice, Quot.sound |
| `Verif.Recurrence.C123_mle_fails` | propext, Classical.choice, Quot.sound |
| `Verif.Recurrence.C123_weichert_partial` | propext, Classical.choice, Quot.sound |
| `Verif.Recurrence.C123_weichert_fails` | propext, Classical.choice, Quot.sound |
| `Verif.MaxMag.C124_bounds_partial` | propext, Classical.choice, Quot.sound |
| `Verif.MaxMag.C124_fails` | propext, Classical.choice, Quot.sound |
| `Verif.Recurrence.C125_periods_partial` | propext, Classical.choice, Quot.sound |
| `Verif.Recurrence.C125_stepp_partial` | propext, Classical.choice, Quot.sound |
| `Verif.Recurrence.C125_fails` | propext, Classical.choice, Quot.sound |
| `Verif.Declustering.C126_removed_partial` | propext, Classical.choice, Quot.sound |
| `Verif.Declustering.C126_fails` | propext, Classical.choice, Quot.sound |
| `Verif.MaxMag.kijkoObserved_none` | propext |
| `Verif.MaxMag.C127_own_maximum` | propext, Classical.choice, Quot.sound |
| `Verif.MaxMag.C127_uncertainties_unused` | propext |
| `Verif.MaxMag.C127_uncertainty` | propext, Classical.choice, Quot.sound |
| `Verif.MaxMag.C127_magnitude_independent` | propext, Classical.choice, Quot.sound |
| `Verif.MaxMag.C127_terminates` | propext, Classical.choice, Quot.sound |
| `Verif.MaxMag.C128_succeeds` | propext, Classical.choice, Quot.sound |
| `Verif.MaxMag.C128_default_succeeds` | propext, Classical.choice, Quot.sound |
| `Verif.MaxMag.C129_not_below_partial` | propext, Classical.choice, Quot.sound |
| `Verif.MaxMag.C129_not_below_fails` | propext, Classical.choice, Quot.sound |
| `Verif.Completeness.C130_refused_partial` | propext, Quot.sound |
| `Verif.Completeness.C130_one_flag` | propext, Quot.sound |
| `Verif.Completeness.C130_one_event` | propext, Classical.choice, Quot.sound |
| `Verif.Completeness.C130_refused_fails` | propext, Classical.choice, Quot.sound |
| `Verif.Workflow.C131_run` | propext, Classical.choice, Quot.sound |
| `Verif.Workflow.C131_observable` | propext, Classical.choice, Quot.sound |
| `Verif.Workflow.C132_maximum` | propext, Classical.choice, Quot.sound |
| `Verif.Workflow.C133_recurrence` | propext, Classical.choice, Quot.sound |
| `Verif.Declustering.C134_published_partial` | propext, Classical.choice, Quot.sound |
| `Verif.Declustering.C134_uhrhammer_time` | propext, Classical.choice, Quot.sound |
| `Verif.Declustering.C134_uhrhammer_constant` | propext, Classical.choice, Quot.sound |
| `Verif.Declustering.C134_published_fails` | propext, Classical.choice, Quot.sound |
| `Verif.Console.C135_outcome` | propext, Classical.choice, Quot.sound |
| `Verif.Workflow.C136_run` | propext, Classical.choice, Quot.sound |
| `Verif.Workflow.C136_observable` | propext, Classical.choice, Quot.sound |
| `Verif.Declustering.C136_gardner_knopoff` | propext, Quot.sound |
| `Verif.Declustering.C136_afteran` | propext, Quot.sound |
| `Verif.Workflow.C137_valid_result` | propext, Classical.choice, Quot.sound |
| `Verif.Nrml.rewritten_valid` | propext, Classical.choice, Quot.sound |
| `Verif.Nrml.rnd12_keeps` | propext, Classical.choice, Quot.sound |
| `Verif.Completeness.C138_stepp` | propext, Classical.choice, Quot.sound |
| `Verif.Recurrence.C138_weichert` | propext, Classical.choice, Quot.sound |
| `Verif.Recurrence.C138_maxlike` | propext, Classical.choice, Quot.sound |
| `Verif.Recurrence.C138_maxlike_iff` | propext, Classical.choice, Quot.sound |
| `Verif.MaxMag.C138_kijko` | propext, Classical.choice, Quot.sound |
| `Verif.MaxMag.C138_cumulative` | propext, Classical.choice, Quot.sound |
| `Verif.Declustering.C138_declustering` | propext, Classical.choice, Quot.sound |
| `Verif.Declustering.C138_declustering_values` | propext, Classical.choice, Quot.sound |
| `Verif.Workflow.C139_reported` | propext, Classical.choice, Quot.sound |
| `Verif.Workflow.C139_unusable_boundary` | propext, Classical.choice, Quot.sound |
| `Verif.Format.C140_read` | propext, Classical.choice, Quot.sound |
| `Verif.Format.C140_refused` | propext, Classical.choice, Quot.sound |
| `Verif.Format.C140_unique` | propext, Classical.choice, Quot.sound |
| `Verif.Format.C140_printed` | propext, Classical.choice, Quot.sound |
| `Verif.Format.C140_printed_table` | propext, Classical.choice, Quot.sound |
| `Verif.Nrml.C140_schema` | propext, Classical.choice, Quot.sound |
| `Verif.Workflow.C141_results` | propext, Classical.choice, Quot.sound |
| `Verif.Recurrence.C142_fails` | propext, Classical.choice, Quot.sound |
| `Verif.Recurrence.C142_used_partial` | propext, Classical.choice, Quot.sound |
| `Verif.Recurrence.C142_all_partial` | propext, Classical.choice, Quot.sound |
| `Verif.EqCatalog.C143_fails` | propext, Classical.choice, Quot.sound |
| `Verif.EqCatalog.C143_depth_fails` | propext, Classical.choice, Quot.sound |
| `Verif.EqCatalog.C143_position_partial` | propext, Classical.choice, Quot.sound |
| `Verif.EqCatalog.C143_magnitude_partial` | propext, Classical.choice, Quot.sound |
| `Verif.Recurrence.C143_default_table` | propext, Classical.choice, Quot.sound |
| `Verif.Recurrence.C144_fails` | propext, Classical.choice, Quot.sound |
| `Verif.Recurrence.C144_nan` | propext, Classical.choice, Quot.sound |
| `Verif.Recurrence.C144_number_partial` | propext, Classical.choice, Quot.sound |
| `Verif.Workflow.C145_run` | propext, Classical.choice, Quot.sound |
| `Verif.Workflow.C145_standard` | propext, Classical.choice, Quot.sound |
| `Verif.Workflow.C145_determined` | propext, Classical.choice, Quot.sound |
| `Verif.Csv.C146_lines` | propext, Classical.choice, Quot.sound |
| `Verif.Csv.C146_last_line` | propext, Classical.choice, Quot.sound |
| `Verif.Csv.C146_open_quotation` | propext, Classical.choice, Quot.sound |
| `Verif.Csv.C146_cells` | propext, Quot.sound |
| `Verif.Csv.C147_no_line_lost_partial` | propext, Classical.choice, Quot.sound |
| `Verif.Csv.C147_fails` | propext, Classical.choice, Quot.sound |
| `Verif.Csv.C148_cut_off_refused_partial` | propext, Classical.choice, Quot.sound |
| `Verif.Csv.C148_fails` | propext, Classical.choice, Quot.sound |
| `Verif.Workflow.C149_range_partial` | propext, Classical.choice, Quot.sound |
| `Verif.Workflow.C149_fails` | propext, Classical.choice, Quot.sound |
| `Verif.Workflow.C149_recurrence_only_fails` | propext, Classical.choice, Quot.sound |
| `Verif.EqCatalog.C150_checks` | propext, Classical.choice, Quot.sound |
| `Verif.EqCatalog.C151_documented_partial` | propext, Classical.choice, Quot.sound |
| `Verif.EqCatalog.C151_identifier_and_second` | propext, Classical.choice, Quot.sound |
| `Verif.EqCatalog.C151_fails` | propext, Classical.choice, Quot.sound |
| `Verif.EqCatalog.C152_identifiers_partial` | propext, Quot.sound |
| `Verif.EqCatalog.C152_fails` | propext, Classical.choice, Quot.sound |
| `Verif.Table.C153_outcome` | propext, Classical.choice, Quot.sound |
| `Verif.Table.C153_two_columns_partial` | propext, Classical.choice, Quot.sound |
| `Verif.Table.C153_word` | propext, Classical.choice, Quot.sound |
| `Verif.Table.C153_one_column_fails` | propext, Classical.choice, Quot.sound |
| `Verif.Recurrence.C154_numbers` | propext, Classical.choice, Quot.sound |
| `Verif.Recurrence.C154_transfer` | propext, Classical.choice, Quot.sound |
| `Verif.MaxMag.C155_numbers_partial` | propext, Classical.choice, Quot.sound |
| `Verif.MaxMag.C155_numbers_fails` | propext, Classical.choice, Quot.sound |
| `Verif.MaxMag.C155_no_smoothing` | propext, Classical.choice, Quot.sound |
| `Verif.MaxMag.C155_equal_magnitudes` | propext, Classical.choice, Quot.sound |
| `Verif.MaxMag.C155_outcome` | propext, Classical.choice, Quot.sound |
| `Verif.MaxMag.C155_outliers` | propext, Classical.choice, Quot.sound |
| `Verif.MaxMag.C155_outliers_fails` | propext, Classical.choice, Quot.sound |
| `Verif.MaxMag.C156_numbers_partial` | propext, Classical.choice, Quot.sound |
| `Verif.MaxMag.C156_numbers_fails` | propext, Classical.choice, Quot.sound |
| `Verif.MaxMag.C156_estimate` | propext, Classical.choice, Quot.sound |
| `Verif.MaxMag.C156_one_year` | propext, Classical.choice, Quot.sound |
| `Verif.MaxMag.C156_one_sample` | propext, Classical.choice, Quot.sound |
| `Verif.Completeness.C157_stepp_numbers` | propext, Classical.choice, Quot.sound |
| `Verif.Declustering.C158_gk` | propext, Classical.choice, Quot.sound |
| `Verif.Declustering.C158_gk_partial` | propext, Classical.choice, Quot.sound |
| `Verif.Declustering.C158_gk_small` | propext, Classical.choice, Quot.sound |
| `Verif.Declustering.C158_afteran` | propext, Classical.choice, Quot.sound |
| `Verif.Declustering.C158_afteran_partial` | propext, Classical.choice, Quot.sound |
| `Verif.Declustering.C158_afteran_alone` | propext, Classical.choice, Quot.sound |
| `Verif.Declustering.C158_afteran_fails` | propext, Classical.choice, Quot.sound |
| `Verif.Fault.C159_rates_partial` | propext, Classical.choice, Quot.sound |
| `Verif.Fault.C159_zero_b` | propext, Classical.choice, Quot.sound |
| `Verif.Fault.C159_rates_fails` | propext, Classical.choice, Quot.sound |
| `Verif.Fault.C160_fault_partial` | propext, Classical.choice, Quot.sound |
| `Verif.Fault.C160_fault_fails` | propext, Classical.choice, Quot.sound |
| `Verif.Fault.C160_region_partial` | propext, Classical.choice, Quot.sound |
| `Verif.Recurrence.C161_rate_partial` | propext, Classical.choice, Quot.sound |
| `Verif.Recurrence.C161_default` | propext, Classical.choice, Quot.sound |
| `Verif.Recurrence.C161_stepp` | propext, Classical.choice, Quot.sound |
| `Verif.Recurrence.C161_late` | propext, Classical.choice, Quot.sound |
| `Verif.Recurrence.C161_rate_fails` | propext, Classical.choice, Quot.sound |
| `Verif.Workflow.C162_run` | propext, Classical.choice, Quot.sound |
| `Verif.Recurrence.C163_total_partial` | propext, Classical.choice, Quot.sound |
| `Verif.Recurrence.C163_fails` | propext, Classical.choice, Quot.sound |
| `Verif.Recurrence.C164_bin_partial` | propext, Classical.choice, Quot.sound |
| `Verif.Recurrence.C164_fails` | propext, Classical.choice, Quot.sound |
| `Verif.EqCatalog.C165_kept_partial` | propext, Quot.sound |
| `Verif.EqCatalog.C165_seconds_dropped` | propext, Quot.sound |
| `Verif.EqCatalog.C165_fails` | propext, Classical.choice, Quot.sound |
| `Verif.Fault.C166_accepted_partial` | propext, Classical.choice, Quot.sound |
| `Verif.Fault.C166_fails` | propext, Classical.choice, Quot.sound |
| `Verif.Fault.C167_sum_near_one` | propext, Classical.choice, Quot.sound |
| `Verif.Fault.C168_number_partial` | propext, Classical.choice, Quot.sound |
| `Verif.Fault.C168_fails` | propext, Classical.choice, Quot.sound |
| `Verif.CatUtil.C169_integer_part` | propext, Classical.choice, Quot.sound |
| `Verif.CatUtil.C169_order` | propext, Classical.choice, Quot.sound |
| `Verif.Completeness.C170_rows_partial` | propext, Classical.choice, Quot.sound |
| `Verif.Completeness.C170_fails` | propext, Classical.choice, Quot.sound |
| `Verif.Completeness.C171_counts` | propext, Classical.choice, Quot.sound |
| `Verif.Completeness.C172_flag_partial` | propext, Classical.choice, Quot.sound |
| `Verif.Completeness.C172_fails` | propext, Classical.choice, Quot.sound |
| `Verif.Recurrence.C173_counts` | propext, Classical.choice, Quot.sound |
| `Verif.Recurrence.C174_bin_partial` | propext, Classical.choice, Quot.sound |
| `Verif.Recurrence.C174_fails` | propext, Classical.choice, Quot.sound |
| `Verif.Recurrence.C174_complete_lost` | propext, Classical.choice, Quot.sound |
| `Verif.CatUtil.C175_accuracy` | propext, Classical.choice, Quot.sound |
| `Verif.CatUtil.C175_order` | propext, Classical.choice, Quot.sound |
| `Verif.Recurrence.C176_selected` | propext, Classical.choice, Quot.sound |
| `Verif.Recurrence.C177_used` | propext, Classical.choice, Quot.sound |
| `Verif.Recurrence.C178_periods` | propext, Classical.choice, Quot.sound |
| `Verif.Recurrence.C178_stepp` | propext, Classical.choice, Quot.sound |
| `Verif.Recurrence.C179_stored` | propext, Classical.choice, Quot.sound |
| `Verif.Recurrence.C180_selection_partial` | propext, Classical.choice, Quot.sound |
| `Verif.Recurrence.C180_periods_partial` | propext, Classical.choice, Quot.sound |
| `Verif.Recurrence.C180_fails` | propext, Classical.choice, Quot.sound |
| `Verif.Format.C181_number` | propext, Classical.choice, Quot.sound |
| `Verif.Csv.C181_catalogue` | propext, Classical.choice, Quot.sound |
| `Verif.Nrml.C182_sources` | propext, Classical.choice, Quot.sound |
| `Verif.Nrml.C182_stable` | propext, Classical.choice, Quot.sound |
| `Verif.MaxMag.C183_years` | propext, Classical.choice, Quot.sound |
| `Verif.Declustering.C184_gk_row_order` | propext, Classical.choice, Quot.sound |
| `Verif.Declustering.C184_afteran_row_order` | propext, Classical.choice, Quot.sound |
| `Verif.Declustering.C184_gk_again` | propext, Classical.choice, Quot.sound |
| `Verif.Declustering.C184_gk_no_pair` | propext, Classical.choice, Quot.sound |
| `Verif.Declustering.C185_mainshock_largest` | propext, Classical.choice, Quot.sound |
| `Verif.Declustering.C185_chain` | propext, Classical.choice, Quot.sound |
| `Verif.Declustering.C186_same_partial` | propext, Classical.choice, Quot.sound |
| `Verif.Declustering.C186_succeeds` | propext, Classical.choice, Quot.sound |
| `Verif.Declustering.C186_fails` | propext, Classical.choice, Quot.sound |
| `Verif.Declustering.C187_gk_same` | propext, Classical.choice, Quot.sound |
| `Verif.Declustering.C187_distance_symmetric` | propext, Classical.choice, Quot.sound |
| `Verif.Declustering.C187_gk_largest` | propext, Classical.choice, Quot.sound |
| `Verif.Recurrence.C188_b_value` | propext, Classical.choice, Quot.sound |
| `Verif.Recurrence.C189_average` | propext, Classical.choice, Quot.sound |
| `Verif.Recurrence.C190_run` | propext, Classical.choice, Quot.sound |
| `Verif.Fault.C191_rates` | propext, Classical.choice, Quot.sound |
| `Verif.EqCatalog.C192_row_partial` | propext, Classical.choice, Quot.sound |
| `Verif.EqCatalog.C192_file_partial` | propext, Classical.choice, Quot.sound |
| `Verif.EqCatalog.C192_accepts` | propext, Classical.choice, Quot.sound |
| `Verif.EqCatalog.C192_fails` | propext, Classical.choice, Quot.sound |
| `Verif.Workflow.C193_file` | propext, Classical.choice, Quot.sound |
| `Verif.Recurrence.C194_table` | propext, Classical.choice, Quot.sound |
| `Verif.Recurrence.C194_stored` | propext, Classical.choice, Quot.sound |
| `Verif.Workflow.C195_file` | propext, Classical.choice, Quot.sound |
| `Verif.Fault.C196_width` | propext, Classical.choice, Quot.sound |
| `Verif.Fault.C196_accuracy` | propext, Classical.choice, Quot.sound |
| `Verif.Fault.C196_monotone` | propext, Classical.choice, Quot.sound |
| `Verif.Fault.C196_vertical` | propext, Classical.choice, Quot.sound |
| `Verif.Fault.C196_direction` | propext, Classical.choice, Quot.sound |
| `Verif.Recurrence.C197_selected` | propext, Classical.choice, Quot.sound |
| `Verif.Recurrence.C197_stored` | propext, Classical.choice, Quot.sound |
| `Verif.Workflow.C197_files` | propext, Classical.choice, Quot.sound |
| `Verif.Workflow.C198_run_partial` | propext, Classical.choice, Quot.sound |
| `Verif.Workflow.C198_equal` | propext, Classical.choice, Quot.sound |
| `Verif.Workflow.C198_fails` | propext, Classical.choice, Quot.sound |
| `Verif.Completeness.C199_stepp` | propext, Classical.choice, Quot.sound |
| `Verif.Recurrence.C199_recurrence` | propext, Classical.choice, Quot.sound |
| `Verif.MaxMag.C199_kijko` | propext, Classical.choice, Quot.sound |
| `Verif.Completeness.C200_years` | propext, Classical.choice, Quot.sound |
| `Verif.Completeness.C200_succeeds` | propext, Classical.choice, Quot.sound |
| `Verif.Completeness.C200_lock` | propext, Classical.choice, Quot.sound |
| `Verif.Completeness.C200_stored` | propext, Classical.choice, Quot.sound |
| `Verif.Workflow.C201_run` | propext, Classical.choice, Quot.sound |
| `Verif.Workflow.C201_each` | propext, Quot.sound |
| `Verif.MaxMag.C202_int_partial` | propext |
| `Verif.MaxMag.C202_samples` | propext, Classical.choice, Quot.sound |
| `Verif.MaxMag.C202_fails` | propext, Classical.choice, Quot.sound |
| `Verif.Workflow.C203_run` | propext, Classical.choice, Quot.sound |
| `Verif.Workflow.C204_exact` | propext, Classical.choice, Quot.sound |
| `Verif.Workflow.C204_double` | propext, Classical.choice, Quot.sound |
| `Verif.Workflow.C205_partial` | propext, Classical.choice, Quot.sound |
| `Verif.Workflow.C205_fails` | propext, Classical.choice, Quot.sound |
| `Verif.Workflow.C206_run` | propext, Classical.choice, Quot.sound |
| `Verif.Xml.C207_tree` | propext, Classical.choice, Quot.sound |
| `Verif.Xml.C207_document` | propext, Classical.choice, Quot.sound |
| `Verif.Xml.C207_sources` | propext, Classical.choice, Quot.sound |
| `Verif.Xml.C207_injective` | propext, Classical.choice, Quot.sound |
| `Verif.Workflow.C207_next_run` | propext, Classical.choice, Quot.sound |
| `Verif.Yaml.C208_partial` | propext, Classical.choice, Quot.sound |
| `Verif.Yaml.C208_usual_partial` | propext, Classical.choice, Quot.sound |
| `Verif.Yaml.C208_int` | propext, Classical.choice, Quot.sound |
| `Verif.Yaml.C208_dotless` | propext, Classical.choice, Quot.sound |
| `Verif.Yaml.C208_fails` | propext, Classical.choice, Quot.sound |
| `Verif.Yaml.C208_tolerance` | propext, Classical.choice, Quot.sound |
| `Verif.Yaml.C209_layout` | propext, Classical.choice, Quot.sound |
| `Verif.Yaml.C210_order` | propext, Classical.choice, Quot.sound |
| `Verif.Yaml.C210_unknown` | propext, Classical.choice, Quot.sound |
| `Verif.Yaml.C210_repeated` | propext, Classical.choice, Quot.sound |
| `Verif.Yaml.C211_partial` | propext, Classical.choice, Quot.sound |
| `Verif.Yaml.C211_fails` | propext, Classical.choice, Quot.sound |
| `Verif.Yaml.C211_number` | propext, Classical.choice, Quot.sound |
| `Verif.Yaml.C212_partial` | propext, Classical.choice, Quot.sound |
| `Verif.Yaml.C212_octal` | propext, Classical.choice, Quot.sound |
| `Verif.Yaml.C212_text` | propext, Classical.choice, Quot.sound |
| `Verif.Yaml.C212_based` | propext, Classical.choice, Quot.sound |
| `Verif.Yaml.C212_fails` | propext, Classical.choice, Quot.sound |
| `Verif.Xml.C213_partial` | propext, Classical.choice, Quot.sound |
| `Verif.Xml.C213_cut` | propext, Classical.choice, Quot.sound |
| `Verif.Xml.C213_sources` | propext, Classical.choice, Quot.sound |
| `Verif.Xml.C213_fails` | propext, Classical.choice, Quot.sound |
| `Verif.Xml.C214_layout` | propext, Classical.choice, Quot.sound |
| `Verif.Xml.C214_windows` | propext, Classical.choice, Quot.sound |
| `Verif.Console.C215_run` | propext, Classical.choice, Quot.sound |
| `Verif.Console.C215_same` | propext, Classical.choice, Quot.sound |
| `Verif.Xml.C216_files` | propext, Classical.choice, Quot.sound |
| `Verif.Xml.C216_text` | propext, Classical.choice, Quot.sound |
| `Verif.Xml.C216_value` | propext, Classical.choice, Quot.sound |
| `Verif.Yaml.C217_partial` | propext, Classical.choice, Quot.sound |
| `Verif.Yaml.C217_sign` | propext, Classical.choice, Quot.sound |
| `Verif.Yaml.C217_exponent` | propext, Classical.choice, Quot.sound |
| `Verif.Yaml.C217_fails` | propext, Classical.choice, Quot.sound |
| `Verif.Workflow.C218_reading` | propext, Classical.choice, Quot.sound |
| `Verif.Workflow.C218_run` | propext, Classical.choice, Quot.sound |
| `Verif.Workflow.C218_catalogue` | propext, Classical.choice, Quot.sound |
| `Verif.Workflow.C218_model` | propext, Classical.choice, Quot.sound |
| `Verif.Workflow.C218_table` | propext, Classical.choice, Quot.sound |
| `Verif.Workflow.C219_run` | propext, Classical.choice, Quot.sound |
| `Verif.EqCatalog.C219_rows` | propext, Classical.choice, Quot.sound |
| `Verif.EqCatalog.C219_row` | propext, Classical.choice, Quot.sound |
| `Verif.Table.C219_table` | propext, Classical.choice, Quot.sound |
| `Verif.Format.C219_whole` | propext, Quot.sound |
| `Verif.Console.C220_run` | propext, Classical.choice, Quot.sound |
| `Verif.Console.C220_main` | propext, Classical.choice, Quot.sound |
| `Verif.Workflow.C221_run` | propext, Classical.choice, Quot.sound |
| `Verif.Workflow.C221_model` | propext, Classical.choice, Quot.sound |
| `Verif.Nrml.C221_doc` | propext, Classical.choice, Quot.sound |
| `Verif.Nrml.C221_words` | propext, Quot.sound |
| `Verif.Nrml.C221_schema` | propext, Classical.choice, Quot.sound |
| `Verif.Yaml.C222_stands` | propext, Classical.choice, Quot.sound |
| `Verif.Yaml.C222_config` | propext, Classical.choice, Quot.sound |
| `Verif.Yaml.C222_load` | propext, Classical.choice, Quot.sound |
| `Verif.Yaml.C223_number` | propext, Classical.choice, Quot.sound |
| `Verif.Yaml.C223_load` | propext, Classical.choice, Quot.sound |
| `Verif.Yaml.C223_file` | propext, Classical.choice, Quot.sound |
| `Verif.Console.C223_run` | propext, Classical.choice, Quot.sound |
| `Verif.Yaml.C224_config` | propext, Classical.choice, Quot.sound |
| `Verif.Yaml.C224_load` | propext, Classical.choice, Quot.sound |
