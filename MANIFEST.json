{
 "claims": [
  {
   "property": "C01",
   "status": "proved",
   "theorems": [
    "Verif.EqCatalog.C01_header_gate",
    "Verif.EqCatalog.C01_otherwise_refused"
   ],
   "note": "Any file text; exact set of accepted first lines."
  },
  {
   "property": "C02",
   "status": "proved",
   "theorems": [
    "Verif.EqCatalog.C02_accepted_ranges"
   ],
   "note": "Any row, any dictionary order, any number type."
  },
  {
   "property": "C03",
   "status": "partial",
   "theorems": [
    "Verif.EqCatalog.C03_possible_day_partial",
    "Verif.EqCatalog.C03_possible_day_fails"
   ],
   "note": "False of the code: day 0 and negative days of February are accepted (negation proved with a witness); proved exactly what the code enforces."
  },
  {
   "property": "C04",
   "status": "proved",
   "theorems": [
    "Verif.EqCatalog.C04_order_independent",
    "Verif.EqCatalog.C04_accepted_iff_valid"
   ],
   "note": "Acceptance does not depend on the dictionary order and is characterised exactly."
  },
  {
   "property": "C05",
   "status": "proved",
   "theorems": [
    "Verif.EqCatalog.C05_optional_clean",
    "Verif.EqCatalog.C05_optional_never_rejects"
   ],
   "note": ""
  },
  {
   "property": "C06",
   "status": "proved",
   "theorems": [
    "Verif.EqCatalog.C06_sigmaMw_number",
    "Verif.EqCatalog.C06_sigmaMw_nonneg"
   ],
   "note": ""
  },
  {
   "property": "C07",
   "status": "partial",
   "theorems": [
    "Verif.EqCatalog.C07_ellipse_partial",
    "Verif.EqCatalog.C07_ellipse_fails"
   ],
   "note": "False of the code in the dictionary order of CPython 2.7 (negation proved); holds when both axes are checked before the strike."
  },
  {
   "property": "C08",
   "status": "partial",
   "theorems": [
    "Verif.EqCatalog.C08_validation_error_partial",
    "Verif.EqCatalog.C08_validation_error_fails"
   ],
   "note": "False of the code for unreadable compulsory floats (TypeError/accepted conversions; negation proved)."
  },
  {
   "property": "C09",
   "status": "partial",
   "theorems": [
    "Verif.EqCatalog.C09_line_number_partial",
    "Verif.EqCatalog.C09_line_number_fails"
   ],
   "note": "Holds when no row spans several lines and no line is blank; negation of the full claim proved."
  },
  {
   "property": "C10",
   "status": "proved",
   "theorems": [
    "Verif.EqCatalog.C10_all_or_nothing",
    "Verif.EqCatalog.C10_order_preserving",
    "Verif.EqCatalog.C10_first_bad_row"
   ],
   "note": ""
  },
  {
   "property": "C11",
   "status": "proved",
   "theorems": [
    "Verif.EqCatalog.C11_wrong_width_rejected"
   ],
   "note": ""
  },
  {
   "property": "C12",
   "status": "proved",
   "theorems": [
    "Verif.Csv.C12_csv_round_trip",
    "Verif.Csv.C12_catalog_round_trip"
   ],
   "note": "Model of the excel dialect of csv with its field limit; all cell texts without NUL within the limit."
  },
  {
   "property": "C13",
   "status": "partial",
   "theorems": [
    "Verif.Csv.C13_stored_catalog_accepted_partial",
    "Verif.Csv.C13_same_entries_fails"
   ],
   "note": "Acceptance and equality outside the error ellipse proved; equality of an inconsistent ellipse is false of the code (negation proved)."
  },
  {
   "property": "C34",
   "status": "proved",
   "theorems": [
    "Verif.Declustering.C34_gk_mainshocks",
    "Verif.Declustering.C34_gk_succeeds",
    "Verif.Declustering.C34_afteran_mainshocks",
    "Verif.Declustering.C34_afteran_succeeds"
   ],
   "note": "Any arithmetic and tie order; totality of Afteran in exact arithmetic, where Gruenthal windows exist for all magnitudes (see C158)."
  },
  {
   "property": "C35",
   "status": "proved",
   "theorems": [
    "Verif.Declustering.C35_gk_flag_cluster",
    "Verif.Declustering.C35_afteran_flag_cluster"
   ],
   "note": ""
  },
  {
   "property": "C36",
   "status": "proved",
   "theorems": [
    "Verif.Declustering.C36_gk_windows"
   ],
   "note": "Any arithmetic, any tie order of the sort."
  },
  {
   "property": "C37",
   "status": "partial",
   "theorems": [
    "Verif.Declustering.C37_at_most_one_kept_partial",
    "Verif.Declustering.C37_one_kept_fails"
   ],
   "note": "False of the code (negation proved): a later cluster can take the main event of an earlier one. At most one event of a cluster is kept."
  },
  {
   "property": "C38",
   "status": "proved",
   "theorems": [
    "Verif.Declustering.C38_gk_nonempty",
    "Verif.Declustering.C38_afteran_nonempty"
   ],
   "note": ""
  },
  {
   "property": "C39",
   "status": "partial",
   "theorems": [
    "Verif.Declustering.C39_largest_survives_partial",
    "Verif.Declustering.C39_symmetric_windows_partial",
    "Verif.Declustering.C39_largest_survives_fails"
   ],
   "note": "False of the code (negation proved): a smaller foreshock can remove the largest event. Holds when the windows of the other events fit in those of the largest one in both directions."
  },
  {
   "property": "C40",
   "status": "proved",
   "theorems": [
    "Verif.Declustering.C40_gk_idempotent"
   ],
   "note": "The smallest magnitude occurs once; the algorithm never centres a cluster on the last event of its order, which must not depend on how ties are sorted."
  },
  {
   "property": "C41",
   "status": "proved",
   "theorems": [
    "Verif.Declustering.C41_gk_equivariant",
    "Verif.Declustering.C41_afteran_equivariant"
   ],
   "note": "Distinct magnitudes."
  },
  {
   "property": "C42",
   "status": "proved",
   "theorems": [
    "Verif.Declustering.C42_afteran_clusters"
   ],
   "note": "Any arithmetic and tie order."
  },
  {
   "property": "C43",
   "status": "proved",
   "theorems": [
    "Verif.Declustering.C43_afteran_mainshock_largest"
   ],
   "note": ""
  },
  {
   "property": "C44",
   "status": "proved",
   "theorems": [
    "Verif.Declustering.C44_afteran_chain"
   ],
   "note": ""
  },
  {
   "property": "C45",
   "status": "partial",
   "theorems": [
    "Verif.Declustering.C45_afteran_distance_partial",
    "Verif.Declustering.C45_afteran_distance_fails"
   ],
   "note": "False of the code (negation proved); members lie within twice the distance window of the kept event."
  },
  {
   "property": "C46",
   "status": "partial",
   "theorems": [
    "Verif.Declustering.C46_gk_isolated",
    "Verif.Declustering.C46_afteran_isolated_partial",
    "Verif.Declustering.C46_afteran_isolated_fails"
   ],
   "note": "Proved for Gardner-Knopoff; false of Afteran (negation proved), which keeps everything if events are isolated in time, or all in distance."
  },
  {
   "property": "C47",
   "status": "partial",
   "theorems": [
    "Verif.Declustering.C47_windows_positive",
    "Verif.Declustering.C47_windows_grow_partial",
    "Verif.Declustering.C47_gk_time_fails"
   ],
   "note": "False of the Gardner-Knopoff time window across magnitude 6.5 (negation proved); all other parts proved. Gruenthal windows below about magnitude -0.036 are NaN (C158)."
  },
  {
   "property": "C48",
   "status": "proved",
   "theorems": [
    "Verif.CatUtil.C48_integer_part",
    "Verif.CatUtil.C48_order"
   ],
   "note": ""
  },
  {
   "property": "C49",
   "status": "proved",
   "theorems": [
    "Verif.CatUtil.C49_great_circle",
    "Verif.CatUtil.C49_symmetric",
    "Verif.CatUtil.C49_self",
    "Verif.CatUtil.C49_zero_iff",
    "Verif.CatUtil.C49_range",
    "Verif.CatUtil.C49_defined",
    "Verif.CatUtil.C49_triangle"
   ],
   "note": "In exact arithmetic."
  },
  {
   "property": "C50",
   "status": "partial",
   "theorems": [
    "Verif.CatUtil.C50_day_count_partial",
    "Verif.CatUtil.C50_day_count_fails"
   ],
   "note": "Exact set of dates where consecutive days are counted one apart; negation of the full claim proved."
  },
  {
   "property": "C27",
   "status": "proved",
   "theorems": [
    "Verif.Completeness.C27_selection",
    "Verif.Completeness.C27_row_order"
   ],
   "note": "Any number type."
  },
  {
   "property": "C28",
   "status": "proved",
   "theorems": [
    "Verif.Completeness.C28_removed_incomplete",
    "Verif.Completeness.C28_stepp_removed_incomplete"
   ],
   "note": ""
  },
  {
   "property": "C29",
   "status": "partial",
   "theorems": [
    "Verif.Completeness.C29_kept_complete_partial",
    "Verif.Completeness.C29_kept_complete_fails"
   ],
   "note": "False of the code (negation proved): an event is compared with the completeness year of the next larger magnitude."
  },
  {
   "property": "C51",
   "status": "proved",
   "theorems": [
    "Verif.Completeness.C51_magnitudes"
   ],
   "note": "In exact arithmetic."
  },
  {
   "property": "C52",
   "status": "proved",
   "theorems": [
    "Verif.Completeness.C52_years",
    "Verif.Completeness.C52_whole_years"
   ],
   "note": "The bound of the length plus one year is for whole years; otherwise less than the length plus two."
  },
  {
   "property": "C53",
   "status": "proved",
   "theorems": [
    "Verif.Completeness.C53_lock_monotone"
   ],
   "note": ""
  },
  {
   "property": "C54",
   "status": "partial",
   "theorems": [
    "Verif.Completeness.C54_counts_partial",
    "Verif.Completeness.C54_counts_fails"
   ],
   "note": "False if no magnitude bin exists (all magnitudes the same multiple of 0.1; negation proved); proved otherwise."
  },
  {
   "property": "C55",
   "status": "proved",
   "theorems": [
    "Verif.Completeness.C55_succeeds"
   ],
   "note": "Exact condition of success."
  },
  {
   "property": "C56",
   "status": "partial",
   "theorems": [
    "Verif.Completeness.C56_last_location_partial",
    "Verif.Completeness.C56_last_location_fails"
   ],
   "note": "False of the code (negation proved): a lone first location is ignored; proved when this does not occur."
  },
  {
   "property": "C57",
   "status": "proved",
   "theorems": [
    "Verif.Recurrence.C57_recurrence_table"
   ],
   "note": "In exact arithmetic."
  },
  {
   "property": "C58",
   "status": "proved",
   "theorems": [
    "Verif.Recurrence.C58_b_value",
    "Verif.Recurrence.C58_value"
   ],
   "note": "In exact arithmetic."
  },
  {
   "property": "C59",
   "status": "proved",
   "theorems": [
    "Verif.Recurrence.C59_average",
    "Verif.Recurrence.C59_errors",
    "Verif.Recurrence.C59_periods"
   ],
   "note": "In exact arithmetic; one period for each distinct year of a table grouped by year."
  },
  {
   "property": "C60",
   "status": "proved",
   "theorems": [
    "Verif.Recurrence.C60_counts"
   ],
   "note": "In exact arithmetic; exact set of counted events."
  },
  {
   "property": "C61",
   "status": "proved",
   "theorems": [
    "Verif.Recurrence.C61_concave",
    "Verif.Recurrence.C61_prepared"
   ],
   "note": "In exact arithmetic."
  },
  {
   "property": "C62",
   "status": "proved",
   "theorems": [
    "Verif.Recurrence.C62_first_stable",
    "Verif.Recurrence.C62_likelihood"
   ],
   "note": "First part for any number type."
  },
  {
   "property": "C63",
   "status": "partial",
   "theorems": [
    "Verif.Recurrence.C63_increasing_likelihood_partial",
    "Verif.Recurrence.C63_first_step_partial",
    "Verif.Recurrence.C63_weichert_terminates_partial",
    "Verif.Recurrence.C63_weichert_terminates_fails",
    "Verif.Recurrence.C63_nothing_complete"
   ],
   "note": "False of the code: without a complete earthquake the iteration goes on with NaN forever, and a catalogue of two events and a two-row table make the Newton iteration diverge (negation proved). Fewer than two bins fail with an IndexError; proved to return when the periods grow from bin to bin by at most exp(1.5 dm) and the likelihood does not decrease at the starting value, or when the first Newton step stays above the growth rate of the periods (global convergence of the iteration)."
  },
  {
   "property": "C64",
   "status": "proved",
   "theorems": [
    "Verif.Recurrence.C64_rate",
    "Verif.Recurrence.C64_reference"
   ],
   "note": "In exact arithmetic."
  },
  {
   "property": "C65",
   "status": "partial",
   "theorems": [
    "Verif.MaxMag.C65_distribution_partial",
    "Verif.MaxMag.C65_distribution_fails"
   ],
   "note": "False of the code more than five standard deviations below the mean, where the value is 1 instead of 0 (negation proved); proved everywhere else."
  },
  {
   "property": "C66",
   "status": "partial",
   "theorems": [
    "Verif.MaxMag.C66_accuracy_partial",
    "Verif.MaxMag.C66_bound_partial",
    "Verif.MaxMag.C66_accuracy_fails",
    "Verif.MaxMag.C66_far_fails"
   ],
   "note": "False of the code (negations proved): one coefficient has the wrong sign, and the error reaches more than 0.18. Proved: the documented accuracy at the mean and beyond five standard deviations above it; from five standard deviations below the mean on an error of at most 0.25, with the value on the side of 1/2."
  },
  {
   "property": "C67",
   "status": "proved",
   "theorems": [
    "Verif.MaxMag.C67_spaced_points"
   ],
   "note": "In exact arithmetic."
  },
  {
   "property": "C68",
   "status": "partial",
   "theorems": [
    "Verif.MaxMag.C68_integral_partial",
    "Verif.MaxMag.C68_integral_fails"
   ],
   "note": "False of the code when magnitudes lie more than five smoothing widths above a sample point (negation proved); proved otherwise."
  },
  {
   "property": "C69",
   "status": "proved",
   "theorems": [
    "Verif.MaxMag.C69_terminates",
    "Verif.MaxMag.C69_terminates_real"
   ],
   "note": "Any arithmetic; the second theorem is the case of a non-negative real tolerance."
  },
  {
   "property": "C70",
   "status": "partial",
   "theorems": [
    "Verif.MaxMag.C70_not_below_observed_partial",
    "Verif.MaxMag.C70_not_below_observed_fails"
   ],
   "note": "The uncertainty part is proved in exact arithmetic (it is NaN if the smoothing factor is zero, see C155); the magnitude part is false of the code (negation proved), proved when the magnitudes span at most five smoothing widths."
  },
  {
   "property": "C71",
   "status": "partial",
   "theorems": [
    "Verif.MaxMag.C71_silverman_partial",
    "Verif.MaxMag.C71_silverman_fails"
   ],
   "note": "False of the code, which compares the function np.std with a number and never uses the standard deviation (negation proved); proved when IQR/1.34 is the smaller one."
  },
  {
   "property": "C72",
   "status": "proved",
   "theorems": [
    "Verif.MaxMag.C72_moment_accounting",
    "Verif.MaxMag.C72_order_independent",
    "Verif.MaxMag.C72_single_year"
   ],
   "note": "In exact arithmetic."
  },
  {
   "property": "C73",
   "status": "partial",
   "theorems": [
    "Verif.MaxMag.C73_exact_partial",
    "Verif.MaxMag.C73_exact_fails",
    "Verif.MaxMag.C73_exact_without_errors"
   ],
   "note": "False of the code (negation proved): if every year of the catalogue released the same moment the samples are minus infinity and their standard deviation is NaN. Proved with infinities and NaN for all other catalogues with integer years, and in exact arithmetic, where log10(0) is a number, for all."
  },
  {
   "property": "C74",
   "status": "partial",
   "theorems": [
    "Verif.MaxMag.C74_known_algorithm_partial",
    "Verif.MaxMag.C74_unknown_algorithm_fails",
    "Verif.MaxMag.C74_unknown_algorithm_result",
    "Verif.MaxMag.C74_unknown_recurrence_fails",
    "Verif.Workflow.C74_run_zero",
    "Verif.Workflow.C74_run_mle"
   ],
   "note": "False of the code (negation proved): an unknown maximum magnitude algorithm gives 0, an unknown recurrence algorithm runs MLE; a whole run writes 0 as maximum magnitude of every source, or exactly what it writes with MLE."
  },
  {
   "property": "C75",
   "status": "proved",
   "theorems": [
    "Verif.Fault.C75_fault_validation",
    "Verif.Fault.mkFault_spec"
   ],
   "note": "mkFault_spec holds in any arithmetic."
  },
  {
   "property": "C76",
   "status": "proved",
   "theorems": [
    "Verif.Fault.C76_dimensions"
   ],
   "note": "In exact arithmetic."
  },
  {
   "property": "C77",
   "status": "proved",
   "theorems": [
    "Verif.Fault.C77_length",
    "Verif.Fault.C77_direction",
    "Verif.Fault.C77_split",
    "Verif.Fault.C77_end_points"
   ],
   "note": "In exact arithmetic."
  },
  {
   "property": "C78",
   "status": "proved",
   "theorems": [
    "Verif.Fault.C78_region_validation",
    "Verif.Fault.C78_first_values",
    "Verif.Fault.C78_missing_entry"
   ],
   "note": "In exact arithmetic (sums of weights)."
  },
  {
   "property": "C79",
   "status": "proved",
   "theorems": [
    "Verif.Fault.C79_defaults",
    "Verif.Fault.C79_overrides",
    "Verif.Fault.C79_no_keyError",
    "Verif.Fault.C79_unknown"
   ],
   "note": "The name of the third region is spelled Subction Intraslab in the code; the correct spelling is refused."
  },
  {
   "property": "C80",
   "status": "proved",
   "theorems": [
    "Verif.Fault.C80_positive"
   ],
   "note": "In exact arithmetic; b-value strictly between 0 and the slope of the moment scaling."
  },
  {
   "property": "C81",
   "status": "proved",
   "theorems": [
    "Verif.Fault.C81_telescope",
    "Verif.Fault.C81_whole_bins"
   ],
   "note": "In exact arithmetic; the range ends half a bin below the maximum magnitude."
  },
  {
   "property": "C82",
   "status": "proved",
   "theorems": [
    "Verif.Fault.C82_refused",
    "Verif.Fault.C82_proportional"
   ],
   "note": "Refusal in any arithmetic, proportionality in exact arithmetic."
  },
  {
   "property": "C83",
   "status": "partial",
   "theorems": [
    "Verif.Nrml.C83_python_partial",
    "Verif.Nrml.C83_same_list_partial",
    "Verif.Nrml.C83_round_trip_partial",
    "Verif.Nrml.C83_writer_accepts",
    "Verif.Nrml.C83_fails",
    "Verif.Nrml.C83_empty_list_unreadable"
   ],
   "note": "Proved for sources whose texts and lists are present; false in general (negation proved): an empty name comes back as None, and an empty list of numbers cannot be read back."
  },
  {
   "property": "C84",
   "status": "proved",
   "theorems": [
    "Verif.Nrml.C84_stable",
    "Verif.Nrml.C84_python"
   ],
   "note": "For number formatting that is stable; proved of the twelve digit format of Python 2.7."
  },
  {
   "property": "C85",
   "status": "proved",
   "theorems": [
    "Verif.Nrml.C85_count",
    "Verif.Nrml.C85_document_order",
    "Verif.Nrml.C85_closing_order",
    "Verif.Nrml.C85_others_ignored"
   ],
   "note": "For every tree that is read without error."
  },
  {
   "property": "C86",
   "status": "proved",
   "theorems": [
    "Verif.Nrml.C86_odd_refused",
    "Verif.Nrml.C86_pairs",
    "Verif.Nrml.C86_even_accepted"
   ],
   "note": ""
  },
  {
   "property": "C87",
   "status": "partial",
   "theorems": [
    "Verif.Nrml.C87_directory_partial",
    "Verif.Nrml.C87_root_partial",
    "Verif.Nrml.C87_fails",
    "Verif.Nrml.C87_bare_name_refused"
   ],
   "note": "False of the code for file names without directory part (negation proved); exact otherwise."
  },
  {
   "property": "C89",
   "status": "partial",
   "theorems": [
    "Verif.Nrml.C89_readable_partial",
    "Verif.Nrml.C89_only_first_rate_model",
    "Verif.Nrml.C89_fails"
   ],
   "note": "False of the code (negation proved): an incremental distribution raises AttributeError and further rate models are dropped. Proved for the remaining conforming elements."
  },
  {
   "property": "C90",
   "status": "partial",
   "theorems": [
    "Verif.Nrml.C90_valid_partial",
    "Verif.Nrml.C90_document_partial",
    "Verif.Nrml.C90_conforms_partial",
    "Verif.Nrml.C90_default_not_valid",
    "Verif.Nrml.C90_default_identifiers"
   ],
   "note": "False of the code: the document written for the default source never conforms (region, magnitude type, repeated identifier). What is written conforms, in elements, attributes, values and identifiers, exactly when every source has a region and magnitude types of the schema, values in range and identifiers that are distinct names."
  },
  {
   "property": "C14",
   "status": "proved",
   "theorems": [
    "Verif.Workflow.C14_matrix"
   ],
   "note": ""
  },
  {
   "property": "C15",
   "status": "proved",
   "theorems": [
    "Verif.Workflow.C15_defaults_select_all",
    "Verif.Workflow.C15_accepted_catalogue",
    "Verif.Workflow.C15_empty_catalogue"
   ],
   "note": "Over the reals, from the catalogue file on; an empty catalogue raises IndexError in create_default_values."
  },
  {
   "property": "C16",
   "status": "proved",
   "theorems": [
    "Verif.Workflow.C16_preprocessing",
    "Verif.Workflow.C16_processing",
    "Verif.Workflow.C16_names"
   ],
   "note": "Exact list of jobs for every configuration."
  },
  {
   "property": "C17",
   "status": "proved",
   "theorems": [
    "Verif.Workflow.C17_refused"
   ],
   "note": ""
  },
  {
   "property": "C18",
   "status": "proved",
   "theorems": [
    "Verif.Workflow.C18_concatenation",
    "Verif.Workflow.C18_in_order",
    "Verif.Workflow.C18_stops"
   ],
   "note": ""
  },
  {
   "property": "C19",
   "status": "proved",
   "theorems": [
    "Verif.Workflow.C19_once_in_order",
    "Verif.Workflow.C19_own_events",
    "Verif.Workflow.C19_multiplicity",
    "Verif.Workflow.C19_default_source"
   ],
   "note": "Polygon containment is an uninterpreted predicate (shapely)."
  },
  {
   "property": "C20",
   "status": "proved",
   "theorems": [
    "Verif.Workflow.C20_disabled"
   ],
   "note": ""
  },
  {
   "property": "C26",
   "status": "proved",
   "theorems": [
    "Verif.Workflow.C26_stored",
    "Verif.Workflow.C26_contents",
    "Verif.Workflow.C26_kept",
    "Verif.Workflow.C26_run"
   ],
   "note": "C26_run is the whole run, for processing lists of the two analyses."
  },
  {
   "property": "C21",
   "status": "proved",
   "theorems": [
    "Verif.Workflow.C21_only_parameters",
    "Verif.Workflow.C21_without_recurrence",
    "Verif.Workflow.C21_without_maximum",
    "Verif.Workflow.C21_minimum_magnitude"
   ],
   "note": ""
  },
  {
   "property": "C22",
   "status": "proved",
   "theorems": [
    "Verif.Workflow.C22_commute",
    "Verif.Workflow.C22_run"
   ],
   "note": ""
  },
  {
   "property": "C23",
   "status": "partial",
   "theorems": [
    "Verif.Workflow.C23_alone_partial",
    "Verif.Workflow.C23_split_partial",
    "Verif.Workflow.C23_order_partial",
    "Verif.Workflow.C23_fails"
   ],
   "note": "Holds for job lists made of the two processing jobs and no random algorithm. Refuted in general: Cumulative_Moment draws from one random stream for all sources, so two copies of a source get different maximum magnitudes."
  },
  {
   "property": "C32",
   "status": "proved",
   "theorems": [
    "Verif.Table.C32_round_trip",
    "Verif.Table.C32_error",
    "Verif.Table.C32_stable",
    "Verif.Table.C32_exact",
    "Verif.Table.C32_empty",
    "Verif.Workflow.C32_jobs"
   ],
   "note": "Over exact arithmetic with decimal rounding to five places."
  },
  {
   "property": "C33",
   "status": "proved",
   "theorems": [
    "Verif.Workflow.C33_run",
    "Verif.Workflow.C33_observable",
    "Verif.MaxMag.C33_reproducible"
   ],
   "note": ""
  },
  {
   "property": "C88",
   "status": "proved",
   "theorems": [
    "Verif.Workflow.C88_written",
    "Verif.Workflow.C88_result_document"
   ],
   "note": ""
  },
  {
   "property": "C24",
   "status": "partial",
   "theorems": [
    "Verif.Workflow.C24_fails",
    "Verif.Workflow.C24_empty_zone_raises",
    "Verif.Workflow.C24_program_aborts",
    "Verif.Workflow.C24_kept_partial"
   ],
   "note": "Refuted: a source without events makes Recurrence and Maximum_Magnitude raise, and the whole program ends with that exception (C24_empty_zone_raises, C24_program_aborts; concrete run C24_fails). C24_kept_partial: with a processing list without these two jobs every source is left as it was."
  },
  {
   "property": "C25",
   "status": "partial",
   "theorems": [
    "Verif.Workflow.C25_fails",
    "Verif.Workflow.C25_no_sources_raises",
    "Verif.Workflow.C25_reader_partial"
   ],
   "note": "Refuted: a valid source model without area sources makes the job read_source_model raise (concrete document C25_fails; every such document C25_no_sources_raises). C25_reader_partial: the NRML reader itself gives the empty list for every such document; the job read_source_model then raises TypeError."
  },
  {
   "property": "C30",
   "status": "partial",
   "theorems": [
    "Verif.Workflow.C30_fails",
    "Verif.Workflow.C30_selection_raises",
    "Verif.Workflow.C30_chained_partial"
   ],
   "note": "Refuted: GardnerKnopoff acts on the working catalogue, so a second one leaves flags for the shortened catalogue and the selection raises ValueError (C30_selection_raises in general, C30_fails on three events). C30_chained_partial: every job list in which GardnerKnopoff is at most the first declustering job keeps flags describing the original rows and the selection succeeds."
  },
  {
   "property": "C31",
   "status": "partial",
   "theorems": [
    "Verif.Workflow.C31_fails",
    "Verif.Workflow.C31_equivalent_partial"
   ],
   "note": "Refuted: the table is stored with five decimals, so for a magnitude with more decimals the second run finds another a value (concrete pair of runs C31_fails). C31_equivalent_partial: for every pair of runs with separate files, numbers of at most five decimals in the completeness table, and either no event removed by the completeness check or an algorithm other than Weichert with a table whose magnitudes decrease with the year, the second run ends with the same source definitions and the same result file."
  },
  {
   "property": "C91",
   "status": "proved",
   "theorems": [
    "Verif.Completeness.C91_stepp",
    "Verif.Recurrence.C91_recurrence"
   ],
   "note": "In exact arithmetic."
  },
  {
   "property": "C92",
   "status": "partial",
   "theorems": [
    "Verif.MaxMag.C92_order_partial",
    "Verif.MaxMag.C92_order_fails"
   ],
   "note": "False of the code for the uncertainty (negation proved): with two events of the largest magnitude it takes the uncertainty of the first one. The magnitude is independent of the order, and so is the uncertainty if the largest events have the same one."
  },
  {
   "property": "C93",
   "status": "proved",
   "theorems": [
    "Verif.Completeness.C93_stepp",
    "Verif.Recurrence.C93_recurrence"
   ],
   "note": "In exact arithmetic."
  },
  {
   "property": "C94",
   "status": "proved",
   "theorems": [
    "Verif.Recurrence.C94_mle",
    "Verif.Recurrence.C94_weichert"
   ],
   "note": "In exact arithmetic; for Weichert also the number of iterations is the same."
  },
  {
   "property": "C95",
   "status": "proved",
   "theorems": [
    "Verif.Workflow.C95_only_outputs",
    "Verif.Workflow.C95_result_last"
   ],
   "note": "Any arithmetic."
  },
  {
   "property": "C96",
   "status": "proved",
   "theorems": [
    "Verif.Workflow.C96_inputs"
   ],
   "note": "Any arithmetic; the random stream is part of the configuration of the run."
  },
  {
   "property": "C97",
   "status": "proved",
   "theorems": [
    "Verif.Workflow.C97_rerun"
   ],
   "note": "Any arithmetic; the same random stream in both runs."
  },
  {
   "property": "C98",
   "status": "proved",
   "theorems": [
    "Verif.Console.C98_understood"
   ],
   "note": "Model of the parts of argparse of Python 2.7 that these options use."
  },
  {
   "property": "C99",
   "status": "proved",
   "theorems": [
    "Verif.Console.C99_stray",
    "Verif.Console.C99_info",
    "Verif.Console.C99_no_arguments",
    "Verif.Console.C99_no_effect"
   ],
   "note": ""
  },
  {
   "property": "C100",
   "status": "partial",
   "theorems": [
    "Verif.Console.C100_missing_partial",
    "Verif.Console.C100_fails"
   ],
   "note": "False of the code (negation proved): with -d the log file is created before the configuration is read. Holds without -d."
  },
  {
   "property": "C101",
   "status": "partial",
   "theorems": [
    "Verif.Console.C101_no_file_partial",
    "Verif.Console.C101_fails"
   ],
   "note": "False of the code (negation proved): -d alone ends in an uncaught TypeError. The files are left alone."
  },
  {
   "property": "C102",
   "status": "proved",
   "theorems": [
    "Verif.Console.C102_only_outputs"
   ],
   "note": "Any arithmetic."
  },
  {
   "property": "C103",
   "status": "proved",
   "theorems": [
    "Verif.CatUtil.C103_matrix",
    "Verif.CatUtil.C103_pairs",
    "Verif.CatUtil.C103_radians",
    "Verif.CatUtil.C103_scalar",
    "Verif.CatUtil.C103_transpose"
   ],
   "note": "Entries in exact real arithmetic; shape and pairs in any arithmetic."
  },
  {
   "property": "C104",
   "status": "partial",
   "theorems": [
    "Verif.CatUtil.C104_missing_latitude_partial",
    "Verif.CatUtil.C104_first_set_partial",
    "Verif.CatUtil.C104_fails"
   ],
   "note": "False of the code (negation proved): surplus latitudes of the second set are ignored. A missing latitude of the second set is refused, and a first set with different numbers (and not just one latitude) is."
  },
  {
   "property": "C105",
   "status": "proved",
   "theorems": [
    "Verif.Declustering.C105_gardner_knopoff",
    "Verif.Declustering.C105_afteran",
    "Verif.Declustering.C105_displacements"
   ],
   "note": "Exact real arithmetic, any result of the sorts."
  },
  {
   "property": "C106",
   "status": "partial",
   "theorems": [
    "Verif.Completeness.C106_stepp",
    "Verif.Recurrence.C106_mle_partial",
    "Verif.Recurrence.C106_weichert_partial",
    "Verif.Recurrence.C106_fails",
    "Verif.MaxMag.C106_kijko",
    "Verif.MaxMag.C106_cumulative_moment",
    "Verif.MaxMag.C106_maximum_magnitude"
   ],
   "note": "Exact real arithmetic. False of the code for one of the results (negation proved): the error of the maximum likelihood rate is 10 ** |(b + sigma_b) * mref - b * mc| and depends on the origin. Proved for the b-value, its error and the rate (maximum likelihood), for all four results (Weichert, multiples of 0.2, reference magnitude not zero, no completeness year after the last event), completeness (multiples of 0.1) and maximum magnitude (any real number)."
  },
  {
   "property": "C107",
   "status": "proved",
   "theorems": [
    "Verif.Declustering.C107_no_foreshocks",
    "Verif.Declustering.C107_simultaneous",
    "Verif.Declustering.C107_negative"
   ],
   "note": "Exact real arithmetic, any result of the sorts."
  },
  {
   "property": "C108",
   "status": "partial",
   "theorems": [
    "Verif.Recurrence.C108_mle_partial",
    "Verif.Recurrence.C108_weichert_partial",
    "Verif.Recurrence.C108_weichert_fails"
   ],
   "note": "False of the code for Weichert (negation proved): such an event adds empty magnitude bins below the completeness magnitude. Proved for maximum likelihood; for Weichert if the events are not the first or last, smallest or largest of the catalogue."
  },
  {
   "property": "C109",
   "status": "proved",
   "theorems": [
    "Verif.MaxMag.C109_largest_only"
   ],
   "note": "Exact real arithmetic; events appended to the catalogue."
  },
  {
   "property": "C110",
   "status": "partial",
   "theorems": [
    "Verif.Workflow.C110_raises_partial",
    "Verif.Workflow.C110_nothing_written_partial",
    "Verif.Workflow.C110_fails"
   ],
   "note": "False of the code (negation proved): the path is looked at after the workflow has run, so intermediate outputs have been written. Proved: such a run always raises and leaves the result path alone, and writes nothing if no intermediate output is asked for."
  },
  {
   "property": "C111",
   "status": "proved",
   "theorems": [
    "Verif.Workflow.C111_unrequested",
    "Verif.Workflow.C111_algorithm"
   ],
   "note": "On the dictionary of configuration keys, which may be missing or without value."
  },
  {
   "property": "C112",
   "status": "partial",
   "theorems": [
    "Verif.Workflow.C112_raises_partial",
    "Verif.Workflow.C112_at_start_partial",
    "Verif.Workflow.C112_nothing_written_partial",
    "Verif.Workflow.C112_fails"
   ],
   "note": "False of the code (negation proved): a missing result_file is noticed at the end, after the preprocessed catalogue is written. Proved: a run that misses something always raises; before anything is written if the key belongs to the building of the pipelines or is the catalogue; without writing if no intermediate output is asked for."
  },
  {
   "property": "C113",
   "status": "proved",
   "theorems": [
    "Verif.Fault.C113_balance",
    "Verif.Fault.C113_accuracy",
    "Verif.Fault.C113_below_supply"
   ],
   "note": "Exact real arithmetic; the rupture length enters through the equation moment(max magnitude) = shear modulus * width * length * (ratio * length)."
  },
  {
   "property": "C114",
   "status": "partial",
   "theorems": [
    "Verif.Fault.C114_below_supply_partial",
    "Verif.Fault.C114_centres_partial",
    "Verif.Fault.C114_fails"
   ],
   "note": "False of the code (negation proved): the last bin may reach above the maximum magnitude. Proved: the exact value of the released moment in all cases, and the bound when the range is a whole number of bins and the b-value at most half the slope of the scaling. Missing: the bound for larger b-values or other ranges, where it can be false."
  },
  {
   "property": "C115",
   "status": "proved",
   "theorems": [
    "Verif.Declustering.C115_gk_no_kept_pair"
   ],
   "note": ""
  },
  {
   "property": "C116",
   "status": "partial",
   "theorems": [
    "Verif.Declustering.C116_next_largest_partial",
    "Verif.Declustering.C116_fails"
   ],
   "note": "False of the code (negation proved): every search starts from the first event of the selection, which may be far away in time. Proved: the largest of the other events in the distance window is removed if it is in the time window and no event as large as the kept one is in the distance window. Missing: the other events, for which the claim is false."
  },
  {
   "property": "C117",
   "status": "partial",
   "theorems": [
    "Verif.Declustering.C117_afteran_idempotent_partial",
    "Verif.Declustering.C117_fails"
   ],
   "note": "False of the code (negation proved). Proved for events in one another's distance windows with distinct magnitudes in which no smaller event precedes a larger one. Missing: catalogues with foreshocks (counterexample) or several places."
  },
  {
   "property": "C118",
   "status": "partial",
   "theorems": [
    "Verif.Completeness.C118_lock_partial",
    "Verif.Completeness.C118_located_partial",
    "Verif.Completeness.C118_fails"
   ],
   "note": "False of the code without the increment lock (negation proved): a bin without a location takes the duration of the bin before. Proved with the lock for all inputs, and without it when every bin has a location of its own."
  },
  {
   "property": "C119",
   "status": "partial",
   "theorems": [
    "Verif.Recurrence.C119_weichert_partial",
    "Verif.Recurrence.C119_weichert_fails",
    "Verif.Recurrence.C119_mle_partial",
    "Verif.Recurrence.C119_mle_fails"
   ],
   "note": "False of the code (negations proved): Weichert at the reference magnitude 0, maximum likelihood with completeness periods of different b-values. Proved: independence of the b-value in all cases; the line for Weichert at reference magnitudes other than 0 and for maximum likelihood with one completeness year; bounds of the factor otherwise."
  },
  {
   "property": "C120",
   "status": "proved",
   "theorems": [
    "Verif.Recurrence.C120_balance"
   ],
   "note": "Exact real arithmetic; a kept event and a table that starts before the end of the catalogue are assumed (without a kept event the code divides 0 by 0)."
  },
  {
   "property": "C121",
   "status": "partial",
   "theorems": [
    "Verif.Recurrence.C121_down_partial",
    "Verif.Recurrence.C121_locked_partial",
    "Verif.Recurrence.C121_fails"
   ],
   "note": "False of the code (negation proved): Stepp's test without the increment lock can return a year twice with another one between; the loop then uses the first twice and drops the other. Proved: tables whose years never go up, in particular all tables of Stepp's test with the lock and a time step of at least 1e-5 years."
  },
  {
   "property": "C122",
   "status": "partial",
   "theorems": [
    "Verif.Declustering.C122_gardner_knopoff_partial",
    "Verif.Declustering.C122_afteran_partial",
    "Verif.Declustering.C122_fails"
   ],
   "note": "False of the code for Gardner-Knopoff (negation proved): the loop stops before the smallest event of the catalogue, so the smallest event of a region removes nothing when the region is declustered alone but does in the whole catalogue. Proved: Afteran in all cases; Gardner-Knopoff when the smallest event of the region is the smallest of the catalogue or has no other event of the region in its windows. Events of different magnitudes are assumed."
  },
  {
   "property": "C123",
   "status": "partial",
   "theorems": [
    "Verif.Completeness.C123_filter",
    "Verif.Recurrence.C123_mle_partial",
    "Verif.Recurrence.C123_mle_fails",
    "Verif.Recurrence.C123_weichert_partial",
    "Verif.Recurrence.C123_weichert_fails"
   ],
   "note": "False of the code (negations proved): maximum likelihood loses years when the rows of a year are separated; Weichert takes the period of a bin from the last row at or below it, so exchanging rows of different years changes the rate. Proved: the completeness filter for all orders; maximum likelihood for all orders that keep the rows of a year together; Weichert for exchanges of rows of the same year."
  },
  {
   "property": "C124",
   "status": "partial",
   "theorems": [
    "Verif.MaxMag.C124_bounds_partial",
    "Verif.MaxMag.C124_fails"
   ],
   "note": "False of the code (negation proved): a magnitude 6 event in one year and a magnitude 5 event in the next give an estimate below 6. Proved: the moment of the estimate lies between the largest yearly moment minus the mean and the total minus the mean; so the claim holds for an event whose year released the mean moment in addition to that of the event."
  },
  {
   "property": "C125",
   "status": "partial",
   "theorems": [
    "Verif.Recurrence.C125_periods_partial",
    "Verif.Recurrence.C125_stepp_partial",
    "Verif.Recurrence.C125_fails"
   ],
   "note": "False of the code (negation proved): Stepp's test can return a row for whose years and magnitudes there is no event, and then b_maxlike_time raises an error. Proved: the recurrence succeeds, with positive results, for every table whose rows each have an event half a bin above their magnitude in their years; in particular for a table of Stepp's test if the last year has an event half a bin above the largest magnitude of the table."
  },
  {
   "property": "C126",
   "status": "partial",
   "theorems": [
    "Verif.Declustering.C126_removed_partial",
    "Verif.Declustering.C126_fails"
   ],
   "note": "False of the code (negation proved): with a larger foreshock fraction a catalogue of three events keeps an event that it removes with a smaller one, since a removed event no longer removes others. Proved if under the larger windows no event lies in the windows of a smaller one and the relation of lying in the windows is transitive."
  },
  {
   "property": "C127",
   "status": "proved",
   "theorems": [
    "Verif.MaxMag.kijkoObserved_none",
    "Verif.MaxMag.C127_own_maximum",
    "Verif.MaxMag.C127_uncertainties_unused",
    "Verif.MaxMag.C127_uncertainty",
    "Verif.MaxMag.C127_magnitude_independent",
    "Verif.MaxMag.C127_terminates"
   ],
   "note": "Termination and the unused uncertainties for every arithmetic, the rest for exact real arithmetic. If several events have the largest magnitude they are assumed to have the same uncertainty (C92 shows why)."
  },
  {
   "property": "C128",
   "status": "proved",
   "theorems": [
    "Verif.MaxMag.C128_succeeds",
    "Verif.MaxMag.C128_default_succeeds"
   ],
   "note": "Exact real arithmetic, where 0/0 is a number; in numpy it is NaN with a warning, not an exception, and ends the iteration (C155_no_smoothing)."
  },
  {
   "property": "C129",
   "status": "partial",
   "theorems": [
    "Verif.MaxMag.C129_not_below_partial",
    "Verif.MaxMag.C129_not_below_fails"
   ],
   "note": "False of the code (negation proved with the catalogue of C70). Proved if the smoothing factor is positive, some event used is not above the given maximum, and the events used lie within five smoothing factors of each other."
  },
  {
   "property": "C130",
   "status": "partial",
   "theorems": [
    "Verif.Completeness.C130_refused_partial",
    "Verif.Completeness.C130_one_flag",
    "Verif.Completeness.C130_one_event",
    "Verif.Completeness.C130_refused_fails"
   ],
   "note": "False of the code (negation proved): one flag is taken as the flag of every event. Proved: with a number of flags other than one and a number of events other than one the mismatch is refused; the outcome for one flag and for one event is characterised completely."
  },
  {
   "property": "C131",
   "status": "proved",
   "theorems": [
    "Verif.Workflow.C131_run",
    "Verif.Workflow.C131_observable"
   ],
   "note": "The files named in the configuration are assumed to be different from the catalogue and the stored catalogue."
  },
  {
   "property": "C132",
   "status": "proved",
   "theorems": [
    "Verif.Workflow.C132_maximum"
   ],
   "note": ""
  },
  {
   "property": "C133",
   "status": "proved",
   "theorems": [
    "Verif.Workflow.C133_recurrence"
   ],
   "note": ""
  },
  {
   "property": "C134",
   "status": "partial",
   "theorems": [
    "Verif.Declustering.C134_published_partial",
    "Verif.Declustering.C134_uhrhammer_time",
    "Verif.Declustering.C134_uhrhammer_constant",
    "Verif.Declustering.C134_published_fails"
   ],
   "note": "False of the Uhrhammer time window (negation proved): the code divides the exponent instead of the days by 365, so the window is about three weeks for every magnitude. Everything else proved."
  },
  {
   "property": "C135",
   "status": "proved",
   "theorems": [
    "Verif.Console.C135_outcome"
   ],
   "note": ""
  },
  {
   "property": "C136",
   "status": "proved",
   "theorems": [
    "Verif.Workflow.C136_run",
    "Verif.Workflow.C136_observable",
    "Verif.Declustering.C136_gardner_knopoff",
    "Verif.Declustering.C136_afteran"
   ],
   "note": ""
  },
  {
   "property": "C137",
   "status": "proved",
   "theorems": [
    "Verif.Workflow.C137_valid_result",
    "Verif.Nrml.rewritten_valid",
    "Verif.Nrml.rnd12_keeps"
   ],
   "note": "rnd12_keeps: the number texts of the code keep the value ranges, as the theorem assumes."
  },
  {
   "property": "C138",
   "status": "proved",
   "theorems": [
    "Verif.Completeness.C138_stepp",
    "Verif.Recurrence.C138_weichert",
    "Verif.Recurrence.C138_maxlike",
    "Verif.Recurrence.C138_maxlike_iff",
    "Verif.MaxMag.C138_kijko",
    "Verif.MaxMag.C138_cumulative",
    "Verif.Declustering.C138_declustering",
    "Verif.Declustering.C138_declustering_values"
   ],
   "note": "Over the real numbers, the declusterings also with NaN (Gruenthal windows of negative magnitudes). C138_maxlike_iff decides the maximum likelihood recurrence for every table and every positive interval. Whether the Weichert iteration ends is the subject of C63."
  },
  {
   "property": "C139",
   "status": "proved",
   "theorems": [
    "Verif.Workflow.C139_reported",
    "Verif.Workflow.C139_unusable_boundary"
   ],
   "note": "Whether a boundary makes a polygon and whether it is valid is decided by shapely, an arbitrary function of the coordinates in the model."
  },
  {
   "property": "C140",
   "status": "proved",
   "theorems": [
    "Verif.Format.C140_read",
    "Verif.Format.C140_refused",
    "Verif.Format.C140_unique",
    "Verif.Format.C140_printed",
    "Verif.Format.C140_printed_table",
    "Verif.Nrml.C140_schema"
   ],
   "note": "float() of Python also reads nan, inf and infinity, which have no value in an ordered field; see C143 for catalogues."
  },
  {
   "property": "C141",
   "status": "proved",
   "theorems": [
    "Verif.Workflow.C141_results"
   ],
   "note": "Over any number type. The random stream of the cumulative moment analysis is at some position p."
  },
  {
   "property": "C142",
   "status": "partial",
   "theorems": [
    "Verif.Recurrence.C142_fails",
    "Verif.Recurrence.C142_used_partial",
    "Verif.Recurrence.C142_all_partial"
   ],
   "note": "b_max_likelihood drops the bins whose centre is below the completeness magnitude, so events less than half a magnitude interval above it may be ignored (if no event is left the code divides 0 by 0 and returns nan). Proved: the estimate is made from the events in the other bins, among them every event at least half an interval above the completeness magnitude; and from all events if the completeness magnitude is not above the centre of the lowest bin."
  },
  {
   "property": "C143",
   "status": "partial",
   "theorems": [
    "Verif.EqCatalog.C143_fails",
    "Verif.EqCatalog.C143_depth_fails",
    "Verif.EqCatalog.C143_position_partial",
    "Verif.EqCatalog.C143_magnitude_partial",
    "Verif.Recurrence.C143_default_table"
   ],
   "note": "The magnitude is not checked, and the depth only for being positive: the magnitude text nan and the depth text inf are accepted. Proved: longitude and latitude are ordinary numbers, the depth is a positive number or infinite, the magnitude is an ordinary number exactly when its text is a decimal literal. One nan magnitude makes the default completeness magnitude nan, and then the maximum likelihood recurrence raises ValueError whatever the other earthquakes."
  },
  {
   "property": "C144",
   "status": "partial",
   "theorems": [
    "Verif.Recurrence.C144_fails",
    "Verif.Recurrence.C144_nan",
    "Verif.Recurrence.C144_number_partial"
   ],
   "note": "If no complete event is left after dropping the bins whose centre is below the completeness magnitude, numpy divides 0 by 0 and b-value and rate are nan. Proved for arithmetic with infinities and NaN (numbers are exact reals otherwise): if some event of each period lies half a magnitude interval above its completeness magnitude, the results are the positive numbers of exact arithmetic. The uncertainties (sigma) are not covered: for a period of one event numpy gives nan."
  },
  {
   "property": "C145",
   "status": "proved",
   "theorems": [
    "Verif.Workflow.C145_run",
    "Verif.Workflow.C145_standard",
    "Verif.Workflow.C145_determined"
   ],
   "note": "an equivalence between the runs of the workflow that end without exception and a relation that only mentions the analyses and the files; C145_standard spells it out for the standard configuration"
  },
  {
   "property": "C146",
   "status": "proved",
   "theorems": [
    "Verif.Csv.C146_lines",
    "Verif.Csv.C146_last_line",
    "Verif.Csv.C146_open_quotation",
    "Verif.Csv.C146_cells"
   ],
   "note": ""
  },
  {
   "property": "C147",
   "status": "partial",
   "theorems": [
    "Verif.Csv.C147_no_line_lost_partial",
    "Verif.Csv.C147_fails"
   ],
   "note": "holds for all files without quotes; a stray quote at the start of the optional last cell swallows the lines that follow (negation proved)"
  },
  {
   "property": "C148",
   "status": "partial",
   "theorems": [
    "Verif.Csv.C148_cut_off_refused_partial",
    "Verif.Csv.C148_fails"
   ],
   "note": "every quote-free file with a line that does not have 24 commas is refused; a cut inside the last column is not noticed (negation proved)"
  },
  {
   "property": "C149",
   "status": "partial",
   "theorems": [
    "Verif.Workflow.C149_range_partial",
    "Verif.Workflow.C149_fails",
    "Verif.Workflow.C149_recurrence_only_fails"
   ],
   "note": "proved for the Kijko algorithm and events within five smoothing widths; false of the code for cumulative moments (maximum below the largest event) and when no maximum magnitude is computed for the default source (negations proved)"
  },
  {
   "property": "C150",
   "status": "proved",
   "theorems": [
    "Verif.EqCatalog.C150_checks"
   ],
   "note": "Exact real numbers in the columns; values of every type (numbers, texts, None) in every column."
  },
  {
   "property": "C151",
   "status": "partial",
   "theorems": [
    "Verif.EqCatalog.C151_documented_partial",
    "Verif.EqCatalog.C151_identifier_and_second",
    "Verif.EqCatalog.C151_fails"
   ],
   "note": "False of the code for two columns (negation proved): a blank Identifier, documented as not used, makes the row refused; blank seconds, documented as compulsory, are accepted. Proved for the other 23 columns."
  },
  {
   "property": "C152",
   "status": "partial",
   "theorems": [
    "Verif.EqCatalog.C152_identifiers_partial",
    "Verif.EqCatalog.C152_fails"
   ],
   "note": "False of the code (negation proved): repeated identifiers are accepted. Proved: the identifiers are the numbers of the first column in file order, so they are unique exactly if those of the file are."
  },
  {
   "property": "C153",
   "status": "partial",
   "theorems": [
    "Verif.Table.C153_outcome",
    "Verif.Table.C153_two_columns_partial",
    "Verif.Table.C153_word",
    "Verif.Table.C153_one_column_fails"
   ],
   "note": "The outcome is decided for every file; files of two columns of numbers are read as stated. Refuted in general: two lines of one number are taken as one row, and a word becomes NaN."
  },
  {
   "property": "C154",
   "status": "proved",
   "theorems": [
    "Verif.Recurrence.C154_numbers",
    "Verif.Recurrence.C154_transfer"
   ],
   "note": "Exact numbers with infinities and NaN (no rounding). With at least one kept earthquake the computation is the one of exact arithmetic, step by step; with none it never returns (C63_nothing_complete)."
  },
  {
   "property": "C155",
   "status": "partial",
   "theorems": [
    "Verif.MaxMag.C155_numbers_partial",
    "Verif.MaxMag.C155_numbers_fails",
    "Verif.MaxMag.C155_no_smoothing",
    "Verif.MaxMag.C155_equal_magnitudes",
    "Verif.MaxMag.C155_outcome",
    "Verif.MaxMag.C155_outliers",
    "Verif.MaxMag.C155_outliers_fails"
   ],
   "note": "False of the code (negation proved): whenever the smoothing factor, rounded to two decimals, is zero, both results are NaN, in particular for one event and for events of equal magnitude. Proved: with a positive smoothing factor and events within five smoothing factors of those used, the computation with infinities and NaN is the one of exact arithmetic. With a positive smoothing factor and any events: either the computation is the one of exact arithmetic, or both results are NaN and the smoothed number of events vanishes at a value of the iteration. The latter happens whenever the smallest and the largest event are more than five smoothing factors away from all others (for example 3.5, 5.0, 5.0, 5.4, 5.4, 7.0)."
  },
  {
   "property": "C156",
   "status": "partial",
   "theorems": [
    "Verif.MaxMag.C156_numbers_partial",
    "Verif.MaxMag.C156_numbers_fails",
    "Verif.MaxMag.C156_estimate",
    "Verif.MaxMag.C156_one_year",
    "Verif.MaxMag.C156_one_sample"
   ],
   "note": "False of the code (negation proved): events of one year give minus infinity with the uncertainty NaN, one bootstrap sample gives the uncertainty NaN. Decided for cumulative_moment and integer years: minus infinity exactly if every year released the same moment. Proved for the bootstrap: two or more samples none of which is of that kind give ordinary numbers, those of exact arithmetic."
  },
  {
   "property": "C157",
   "status": "proved",
   "theorems": [
    "Verif.Completeness.C157_stepp_numbers"
   ],
   "note": "Numbers with infinities and NaN, without rounding."
  },
  {
   "property": "C158",
   "status": "partial",
   "theorems": [
    "Verif.Declustering.C158_gk",
    "Verif.Declustering.C158_gk_partial",
    "Verif.Declustering.C158_gk_small",
    "Verif.Declustering.C158_afteran",
    "Verif.Declustering.C158_afteran_partial",
    "Verif.Declustering.C158_afteran_alone",
    "Verif.Declustering.C158_afteran_fails"
   ],
   "note": "False of the code (negation proved): Gruenthal windows of negative magnitudes are NaN, and Afteran then raises IndexError. Everything else agrees with exact arithmetic; what Gardner-Knopoff does with such events is characterised."
  },
  {
   "property": "C159",
   "status": "partial",
   "theorems": [
    "Verif.Fault.C159_rates_partial",
    "Verif.Fault.C159_zero_b",
    "Verif.Fault.C159_rates_fails"
   ],
   "note": "False of the code for a b-value of zero (negation proved), where every rate is NaN; true for all other b-values. The estimate of the maximum magnitude is an arbitrary function giving ordinary numbers."
  },
  {
   "property": "C160",
   "status": "partial",
   "theorems": [
    "Verif.Fault.C160_fault_partial",
    "Verif.Fault.C160_fault_fails",
    "Verif.Fault.C160_region_partial"
   ],
   "note": "False of the code for an infinite lower depth (negation proved); no NaN passes."
  },
  {
   "property": "C161",
   "status": "partial",
   "theorems": [
    "Verif.Recurrence.C161_rate_partial",
    "Verif.Recurrence.C161_default",
    "Verif.Recurrence.C161_stepp",
    "Verif.Recurrence.C161_late",
    "Verif.Recurrence.C161_rate_fails"
   ],
   "note": "Refuted: a zone with earthquakes of 1980 to 1990 and a completeness table (2000, 5.0) gets a negative rate, because the earthquakes from the completeness magnitude on are counted whatever their year and the period 1990-2000+1 is negative. Proved for tables whose years are not later than the year after the last earthquake; this holds for the default table in every zone and for the table of Stepp in the catalogue it was computed from. For tables later than that a returned rate is always negative. The rates of the maximum likelihood algorithm are positive by C125 and C144."
  },
  {
   "property": "C162",
   "status": "proved",
   "theorems": [
    "Verif.Workflow.C162_run"
   ],
   "note": "Composes C145 with C154, C157 and C161. The case left out (a source model together with the table of Stepp or a table from a file) is the one in which C161 refutes the positive rate."
  },
  {
   "property": "C163",
   "status": "partial",
   "theorems": [
    "Verif.Recurrence.C163_total_partial",
    "Verif.Recurrence.C163_fails"
   ],
   "note": "Refuted: the magnitude 3.5999999999999996 (the double next below 3.6), times ten, rounds to 36, so that the first edge is above it and the table is empty. Proved for magnitudes of at most two decimals between -10 and 10 and bin widths between 0.001 and 10: every earthquake is counted exactly once in double precision, whatever the functions of the C library."
  },
  {
   "property": "C164",
   "status": "partial",
   "theorems": [
    "Verif.Recurrence.C164_bin_partial",
    "Verif.Recurrence.C164_fails"
   ],
   "note": "Refuted: with the magnitudes 3.0 and 3.3 and bins of 0.1 the earthquake of 3.3 is counted in the bin from 3.2 to 3.3. Proved for bins neither end of which is within 1e-8 of a magnitude of the catalogue."
  },
  {
   "property": "C165",
   "status": "partial",
   "theorems": [
    "Verif.EqCatalog.C165_kept_partial",
    "Verif.EqCatalog.C165_seconds_dropped",
    "Verif.EqCatalog.C165_fails"
   ],
   "note": "Refuted: seconds above 59 (59.5) are replaced by the empty string. Everything else is proved, for every dictionary order."
  },
  {
   "property": "C166",
   "status": "partial",
   "theorems": [
    "Verif.Fault.C166_accepted_partial",
    "Verif.Fault.C166_fails"
   ],
   "note": "Refuted: the weights 0.7, 0.2, 0.1 are refused, because their sum in double precision is 0.9999999999999999. Proved for one or two weights and for any number of weights that are binary fractions."
  },
  {
   "property": "C167",
   "status": "proved",
   "theorems": [
    "Verif.Fault.C167_sum_near_one"
   ],
   "note": "Rounding to 53 bits without overflow and underflow."
  },
  {
   "property": "C168",
   "status": "partial",
   "theorems": [
    "Verif.Fault.C168_number_partial",
    "Verif.Fault.C168_fails"
   ],
   "note": "Refuted: from magnitude 4 to 5 there are eleven rates for ten bins of 0.1. Proved: exactly one rate per bin unless the range is, up to a millionth of a bin, a whole number of bins; then there may be one rate too many, never more and never one too few."
  },
  {
   "property": "C169",
   "status": "proved",
   "theorems": [
    "Verif.CatUtil.C169_integer_part",
    "Verif.CatUtil.C169_order"
   ],
   "note": "Rounding to 53 bits; calendar dates of the years -10000 to 10000."
  },
  {
   "property": "C170",
   "status": "partial",
   "theorems": [
    "Verif.Completeness.C170_rows_partial",
    "Verif.Completeness.C170_fails"
   ],
   "note": "Refuted: the magnitudes 3.0 and 3.1 with bins of 0.1 give two rows for one bin. Proved: exactly one row per bin unless the range is, up to a millionth of a bin, a whole number of bins; then there may be one row too many, never more and never one too few. The magnitudes of the rows are those of exact arithmetic up to 1e-9, the first exactly."
  },
  {
   "property": "C171",
   "status": "proved",
   "theorems": [
    "Verif.Completeness.C171_counts"
   ],
   "note": "Rounding to 53 bits. That there may be no bin at all (all magnitudes equal to one decimal) is C54."
  },
  {
   "property": "C172",
   "status": "partial",
   "theorems": [
    "Verif.Completeness.C172_flag_partial",
    "Verif.Completeness.C172_fails"
   ],
   "note": "Refuted: the row for magnitude 3.3 of a catalogue from 3.0 on has the magnitude 3.3000000000000003, so that it removes an earthquake of magnitude 3.3. Proved for earthquakes whose magnitude is not within 1e-8 of the one of a row."
  },
  {
   "property": "C173",
   "status": "proved",
   "theorems": [
    "Verif.Recurrence.C173_counts"
   ],
   "note": "Rounding to 53 bits. The magnitudes of the rows that remove nothing are a tenth below those of the earthquakes, which are rounded to one decimal."
  },
  {
   "property": "C174",
   "status": "partial",
   "theorems": [
    "Verif.Recurrence.C174_bin_partial",
    "Verif.Recurrence.C174_fails",
    "Verif.Recurrence.C174_complete_lost"
   ],
   "note": "Refuted: with the magnitudes 3.0 and 3.3 and bins of 0.1 the earthquake of 3.3 is counted in the bin from 3.2 to 3.3; as a consequence a complete earthquake is lost if the table has the magnitude 3.3. Proved for bins neither end of which is within 1e-8 of a magnitude of the catalogue."
  },
  {
   "property": "C175",
   "status": "proved",
   "theorems": [
    "Verif.CatUtil.C175_accuracy",
    "Verif.CatUtil.C175_order"
   ],
   "note": "greg2julian over doubles: error at most 1e-9 days, and strictly increasing with time from 1902 to 2099 down to 1 ms."
  },
  {
   "property": "C176",
   "status": "proved",
   "theorems": [
    "Verif.Recurrence.C176_selected"
   ],
   "note": "Selection of b_maxlike_time over doubles, for tables of stepp over doubles: same earthquakes as in exact arithmetic."
  },
  {
   "property": "C177",
   "status": "proved",
   "theorems": [
    "Verif.Recurrence.C177_used"
   ],
   "note": "The counts of the bins that enter the b-value add up to the number of selected earthquakes, over doubles."
  },
  {
   "property": "C178",
   "status": "proved",
   "theorems": [
    "Verif.Recurrence.C178_periods",
    "Verif.Recurrence.C178_stepp"
   ],
   "note": "Observation periods of weichert_prep over doubles; second theorem for tables of stepp over doubles."
  },
  {
   "property": "C179",
   "status": "proved",
   "theorems": [
    "Verif.Recurrence.C179_stored"
   ],
   "note": "Storing with five decimals and reading over doubles: the rows are the doubles nearest to the decimal magnitudes."
  },
  {
   "property": "C180",
   "status": "partial",
   "theorems": [
    "Verif.Recurrence.C180_selection_partial",
    "Verif.Recurrence.C180_periods_partial",
    "Verif.Recurrence.C180_fails"
   ],
   "note": "Same selection and same observation periods; the numbers of earthquakes in the Weichert bins can differ (computed magnitude 3.3000000000000003, stored magnitude 3.3)."
  },
  {
   "property": "C181",
   "status": "proved",
   "theorems": [
    "Verif.Format.C181_number",
    "Verif.Csv.C181_catalogue"
   ],
   "note": "repr (shortest text) and float (nearest double) of Python 2.7 modelled over doubles; C13 without assumptions on number texts."
  },
  {
   "property": "C182",
   "status": "proved",
   "theorems": [
    "Verif.Nrml.C182_sources",
    "Verif.Nrml.C182_stable"
   ],
   "note": "str (twelve digits) and float over doubles satisfy the laws assumed by C83-C90."
  },
  {
   "property": "C183",
   "status": "proved",
   "theorems": [
    "Verif.MaxMag.C183_years"
   ],
   "note": "double precision with any mathematical library"
  },
  {
   "property": "C184",
   "status": "proved",
   "theorems": [
    "Verif.Declustering.C184_gk_row_order",
    "Verif.Declustering.C184_afteran_row_order",
    "Verif.Declustering.C184_gk_again",
    "Verif.Declustering.C184_gk_no_pair"
   ],
   "note": "double precision with any mathematical library"
  },
  {
   "property": "C185",
   "status": "proved",
   "theorems": [
    "Verif.Declustering.C185_mainshock_largest",
    "Verif.Declustering.C185_chain"
   ],
   "note": "double precision with any mathematical library"
  },
  {
   "property": "C186",
   "status": "partial",
   "theorems": [
    "Verif.Declustering.C186_same_partial",
    "Verif.Declustering.C186_succeeds",
    "Verif.Declustering.C186_fails"
   ],
   "note": "false for earthquakes exactly the time window apart: ten days after 1 January 2000 is more than 10/365 in double precision; holds when no two dates are exactly the window apart"
  },
  {
   "property": "C187",
   "status": "proved",
   "theorems": [
    "Verif.Declustering.C187_gk_same",
    "Verif.Declustering.C187_distance_symmetric",
    "Verif.Declustering.C187_gk_largest"
   ],
   "note": "the agreement of the window decisions is a hypothesis, as the windows are computed by the mathematical library"
  },
  {
   "property": "C188",
   "status": "proved",
   "theorems": [
    "Verif.Recurrence.C188_b_value"
   ],
   "note": "The only assumption about the library functions is that log10(exp(1)) is positive. Nothing is said about the uncertainty, whose square root is not specified."
  },
  {
   "property": "C189",
   "status": "proved",
   "theorems": [
    "Verif.Recurrence.C189_average"
   ],
   "note": "All four results; no assumption about the library functions."
  },
  {
   "property": "C190",
   "status": "proved",
   "theorems": [
    "Verif.Recurrence.C190_run"
   ],
   "note": "Combines C177, C188 and C189."
  },
  {
   "property": "C191",
   "status": "proved",
   "theorems": [
    "Verif.Fault.C191_rates"
   ],
   "note": "For a given maximum magnitude. The assumptions about the library functions are spelled out in Spec.Elementary."
  },
  {
   "property": "C192",
   "status": "partial",
   "theorems": [
    "Verif.EqCatalog.C192_row_partial",
    "Verif.EqCatalog.C192_file_partial",
    "Verif.EqCatalog.C192_accepts",
    "Verif.EqCatalog.C192_fails"
   ],
   "note": "Refuted by a longitude of 180.00000000000000001 degrees, which is rounded to 180 and accepted. The partial theorems assume at most nine decimals and numbers up to 100000; C192_accepts has no such limit. Texts like inf and nan are treated in C143."
  },
  {
   "property": "C193",
   "status": "proved",
   "theorems": [
    "Verif.Workflow.C193_file"
   ],
   "note": "Composition of C10, C14, C163, C164 and C165 at the level of the texts of the file. Bins with an earthquake at an edge are excluded as in C164, which is refuted for them."
  },
  {
   "property": "C194",
   "status": "proved",
   "theorems": [
    "Verif.Recurrence.C194_table",
    "Verif.Recurrence.C194_stored"
   ],
   "note": "The a-value is computed with the completeness magnitude itself and is not covered. The Weichert method is the subject of C180."
  },
  {
   "property": "C195",
   "status": "proved",
   "theorems": [
    "Verif.Workflow.C195_file"
   ],
   "note": "The catalogue matrix, the default completeness table and the recurrence job, with IEEE rounding; the elementary functions are arbitrary except that log10(exp(1)) is positive."
  },
  {
   "property": "C196",
   "status": "proved",
   "theorems": [
    "Verif.Fault.C196_width",
    "Verif.Fault.C196_accuracy",
    "Verif.Fault.C196_monotone",
    "Verif.Fault.C196_vertical",
    "Verif.Fault.C196_direction"
   ],
   "note": "IEEE rounding with unbounded exponent; the elementary functions are arbitrary apart from the stated properties."
  },
  {
   "property": "C197",
   "status": "proved",
   "theorems": [
    "Verif.Recurrence.C197_selected",
    "Verif.Recurrence.C197_stored",
    "Verif.Workflow.C197_files"
   ],
   "note": "IEEE rounding with unbounded exponent; the mathematical library is arbitrary. C197_files: jobs and files; C197_stored: the recurrence on the stored table and catalogue; C197_selected: removing the incomplete events beforehand changes nothing."
  },
  {
   "property": "C198",
   "status": "partial",
   "theorems": [
    "Verif.Workflow.C198_run_partial",
    "Verif.Workflow.C198_equal",
    "Verif.Workflow.C198_fails"
   ],
   "note": "Refuted: a run on one earthquake, or on earthquakes of one magnitude, ends without exception and writes NaN. Holds: the maximum magnitudes written are ordinary numbers or NaN, never infinite."
  },
  {
   "property": "C199",
   "status": "proved",
   "theorems": [
    "Verif.Completeness.C199_stepp",
    "Verif.Recurrence.C199_recurrence",
    "Verif.MaxMag.C199_kijko"
   ],
   "note": "In double precision.  With no more events than the configured number, kijko_nonparametric_gauss adds up the kernels in row order, which is not covered."
  },
  {
   "property": "C200",
   "status": "proved",
   "theorems": [
    "Verif.Completeness.C200_years",
    "Verif.Completeness.C200_succeeds",
    "Verif.Completeness.C200_lock",
    "Verif.Completeness.C200_stored"
   ],
   "note": "In double precision."
  },
  {
   "property": "C201",
   "status": "proved",
   "theorems": [
    "Verif.Workflow.C201_run",
    "Verif.Workflow.C201_each"
   ],
   "note": "Over any number type.  With Cumulative_Moment the random numbers of all sources come from one stream, so a source model with another first source shifts them."
  },
  {
   "property": "C202",
   "status": "partial",
   "theorems": [
    "Verif.MaxMag.C202_int_partial",
    "Verif.MaxMag.C202_samples",
    "Verif.MaxMag.C202_fails"
   ],
   "note": "Proved for seeds of type int; a long integer is silently ignored and the shared generator is used instead, which is refuted by a witness over the reals."
  },
  {
   "property": "C203",
   "status": "proved",
   "theorems": [
    "Verif.Workflow.C203_run"
   ],
   "note": "Whole runs of main in double precision; the second run uses the configuration of the first one with the stored catalogue as input and no preprocessing jobs."
  },
  {
   "property": "C204",
   "status": "proved",
   "theorems": [
    "Verif.Workflow.C204_exact",
    "Verif.Workflow.C204_double"
   ],
   "note": "Whole runs of main.  The result document is the same in every number, not only up to rounding.  With equal magnitudes the clusters depend on the order of the sort (C41)."
  },
  {
   "property": "C205",
   "status": "partial",
   "theorems": [
    "Verif.Workflow.C205_partial",
    "Verif.Workflow.C205_fails"
   ],
   "note": "Proved for runs with a completeness table file, or with the same first year and smallest magnitude in both catalogues.  Without a completeness table file the default table takes the first year and the smallest magnitude of the whole catalogue, so a small earthquake far away changes the a-value of a source: refuted by two runs over the reals."
  },
  {
   "property": "C206",
   "status": "proved",
   "theorems": [
    "Verif.Workflow.C206_run"
   ],
   "note": "Whole runs of main, including the methods that draw random numbers."
  },
  {
   "property": "C207",
   "status": "proved",
   "theorems": [
    "Verif.Xml.C207_tree",
    "Verif.Xml.C207_document",
    "Verif.Xml.C207_sources",
    "Verif.Xml.C207_injective",
    "Verif.Workflow.C207_next_run"
   ],
   "note": "The text layer (serialiser of libxml2, parser) is modelled on characters in Model/XmlText.lean; a guard checks that the model writes tests/data/serialized_models.xml character by character."
  },
  {
   "property": "C208",
   "status": "partial",
   "theorems": [
    "Verif.Yaml.C208_partial",
    "Verif.Yaml.C208_usual_partial",
    "Verif.Yaml.C208_int",
    "Verif.Yaml.C208_dotless",
    "Verif.Yaml.C208_fails",
    "Verif.Yaml.C208_tolerance"
   ],
   "note": "False for the doubles Python prints without a decimal point, among them 1e-05: they are loaded as texts, and with a text as tolerance the Kijko estimator raises an exception for every catalogue. Proved for every double printed with a point, in particular zero and magnitudes from 1e-4 to 1e15, and for all integers. The resolver of PyYAML for plain scalars is modelled; quoting, block structure and document syntax are not."
  },
  {
   "property": "C209",
   "status": "proved",
   "theorems": [
    "Verif.Yaml.C209_layout"
   ],
   "note": "The part of YAML that the documented files use is modelled on characters in Model/YamlConfig.lean (block mapping, item lines, flow mappings with one entry per line, comments); a guard reads the text of config.yml."
  },
  {
   "property": "C210",
   "status": "proved",
   "theorems": [
    "Verif.Yaml.C210_order",
    "Verif.Yaml.C210_unknown",
    "Verif.Yaml.C210_repeated"
   ],
   "note": "On the mapping that the file is loaded as; values have their documented types (otherwise the configuration is none on both sides)."
  },
  {
   "property": "C211",
   "status": "partial",
   "theorems": [
    "Verif.Yaml.C211_partial",
    "Verif.Yaml.C211_fails",
    "Verif.Yaml.C211_number"
   ],
   "note": "False: of the file name data #2.csv only data is read, and a file named by a number is read as a number. Proved for names that begin with a letter, underscore or slash, or have a slash or a letter that does not occur in numbers anywhere, and consist of letters, digits, inner spaces and _-+./ (except words such as yes, no, null), numbers printed with a decimal point, all counts and flags."
  },
  {
   "property": "C212",
   "status": "partial",
   "theorems": [
    "Verif.Yaml.C212_partial",
    "Verif.Yaml.C212_octal",
    "Verif.Yaml.C212_text",
    "Verif.Yaml.C212_based",
    "Verif.Yaml.C212_fails"
   ],
   "note": "False: 0100 is read as sixty-four. Proved for rows of digits that do not begin with a zero; for the others it is proved what they are read as: an octal number, or a text if an eight or a nine occurs, and hexadecimal and binary numbers after 0x and 0b."
  },
  {
   "property": "C213",
   "status": "partial",
   "theorems": [
    "Verif.Xml.C213_partial",
    "Verif.Xml.C213_cut",
    "Verif.Xml.C213_sources",
    "Verif.Xml.C213_fails"
   ],
   "note": "False: of <m>6<!--was 7-->.5</m> only 6 is read. Proved for comments with nothing but blanks before the next tag (for all files, well-formed or not, and for written source models down to the sources), and in general that whatever stands between a comment and the next tag is not read. Not covered: comments after the root element, and files with carriage returns."
  },
  {
   "property": "C214",
   "status": "proved",
   "theorems": [
    "Verif.Xml.C214_layout",
    "Verif.Xml.C214_windows"
   ],
   "note": "Equality of the parsed trees, also when both are refused; the sources are computed from the tree. Texts between tags, and raw values of attributes, are the same in both files."
  },
  {
   "property": "C215",
   "status": "proved",
   "theorems": [
    "Verif.Console.C215_run",
    "Verif.Console.C215_same"
   ],
   "note": "On the text of the file: Model/TextProgram reads it with Model/YamlConfig and runs Model/Configuration. Sections that are not given may be left out; an empty list of jobs is written as a key without value."
  },
  {
   "property": "C216",
   "status": "proved",
   "theorems": [
    "Verif.Xml.C216_files",
    "Verif.Xml.C216_text",
    "Verif.Xml.C216_value"
   ],
   "note": "On the characters of the file (Model/XmlText); carriage returns only as references, as typed ones are line ends."
  },
  {
   "property": "C217",
   "status": "partial",
   "theorems": [
    "Verif.Yaml.C217_partial",
    "Verif.Yaml.C217_sign",
    "Verif.Yaml.C217_exponent",
    "Verif.Yaml.C217_fails"
   ],
   "note": "False: 1.5e3 (an exponent without sign) and -.5 (a sign before the point) are read as texts. Proved for all spellings in which the exponent has a sign and a signed number begins with a digit, underscores between digits included; the other two forms are proved to be read as texts."
  },
  {
   "property": "C218",
   "status": "proved",
   "theorems": [
    "Verif.Workflow.C218_reading",
    "Verif.Workflow.C218_run",
    "Verif.Workflow.C218_catalogue",
    "Verif.Workflow.C218_model",
    "Verif.Workflow.C218_table"
   ],
   "note": "C218_reading: equal readings give equal runs, for all files. C218_run: for files of the same rows, texts and tags typed in any of the ways of SaysCatalogue, SaysModel and Table.Spec.Contains, with the XML parser of Model/XmlText; the other three theorems are its parts. Example: a run in double precision with all three input files typed in another way."
  },
  {
   "property": "C219",
   "status": "proved",
   "theorems": [
    "Verif.Workflow.C219_run",
    "Verif.EqCatalog.C219_rows",
    "Verif.EqCatalog.C219_row",
    "Verif.Table.C219_table",
    "Verif.Format.C219_whole"
   ],
   "note": "C219_run: whole runs in double precision, with any mathematical library; the others are its parts. Example: a run in double precision and the same with numbers typed in other ways in both files. For the numbers of the source model see C221."
  },
  {
   "property": "C220",
   "status": "proved",
   "theorems": [
    "Verif.Console.C220_run",
    "Verif.Console.C220_main"
   ],
   "note": "textProgram, i.e. the program from the command line and the text of its configuration file, in double precision with any mathematical library; C220_main: the part after the configuration is read. Example: a run that ends normally and writes a source model, and the same with all four files typed in another way. Source models may differ as in C218 or as in C221; the parts of YAML, CSV and XML are those of Describes, SaysCatalogue and SaysModel."
  },
  {
   "property": "C221",
   "status": "proved",
   "theorems": [
    "Verif.Workflow.C221_run",
    "Verif.Workflow.C221_model",
    "Verif.Nrml.C221_doc",
    "Verif.Nrml.C221_words",
    "Verif.Nrml.C221_schema"
   ],
   "note": "C221_doc: for any reading of numbers that depends only on the number; C221_model and C221_run: for the reading of doubles in Model/Format and whole runs; C221_words: the words found by the reader are those of a specification of white space. The verdict of the schema is a parameter of the model and assumed to be the same for both documents; C221_schema shows this for the part of the schema in Spec/NrmlSchema. Examples: a conforming document retyped; a run in double precision that writes a source model, and the same with all numbers of the source model typed in another way, line breaks in the lists and other indentation."
  },
  {
   "property": "C222",
   "status": "proved",
   "theorems": [
    "Verif.Yaml.C222_stands",
    "Verif.Yaml.C222_config",
    "Verif.Yaml.C222_load",
    "Verif.Console.C215_run",
    "Verif.Console.C215_same",
    "Verif.Console.C220_run"
   ],
   "note": "the runs are C215_run, C215_same and C220_run, whose files describe a configuration in any order, spelling and layout; that some spellings of numbers in common use are not read as numbers is C208, C212 and C217. Not modelled: a reference magnitude given as a whole number, which the writer prints without a decimal point (nrml/writer.py:237); such a file has no configuration in the model"
  },
  {
   "property": "C223",
   "status": "proved",
   "theorems": [
    "Verif.Yaml.C223_number",
    "Verif.Yaml.C223_load",
    "Verif.Yaml.C223_file",
    "Verif.Console.C223_run",
    "Verif.Console.C215_run"
   ],
   "note": "all numbers with unbounded exponent; names as in C211_partial; the number that Python prints is C181"
  },
  {
   "property": "C224",
   "status": "proved",
   "theorems": [
    "Verif.Yaml.C224_config",
    "Verif.Yaml.C224_load",
    "Verif.Console.C215_run",
    "Verif.Console.C215_same",
    "Verif.Console.C220_run"
   ],
   "note": "the runs are C215_run, C215_same and C220_run, whose files may have further entries; values of the further entries are of the modelled part of YAML"
  }
 ]
}