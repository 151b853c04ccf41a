{
 "claims": [
  {
   "property": "C01",
   "status": "partial",
   "theorems": [
    "Nilmtk.C01_start_before_end_partial",
    "Nilmtk.C01_setter_decides",
    "Nilmtk.C01_disabled_assignment_counterexample",
    "Nilmtk.C01_clear_accepts_anything"
   ],
   "note": "start < end is invariant under construction and assignment as long as bounds are assigned while the frame is enabled; assigning while enabled=False bypasses the check (counterexample proved)."
  },
  {
   "property": "C02",
   "status": "partial",
   "theorems": [
    "Nilmtk.C02_intersection_pointwise_partial",
    "Nilmtk.C02_intersection_halfopen",
    "Nilmtk.C02_empty_iff_disjoint",
    "Nilmtk.C02_intersection_interior",
    "Nilmtk.C02_closed_tie_counterexample",
    "Nilmtk.C02_closed_touch_counterexample"
   ],
   "note": "Pointwise for half-open frames; for closed ends, except when both ends coincide with different include_end flags or closed frames touch in one instant (counterexamples proved)."
  },
  {
   "property": "C03",
   "status": "proved",
   "theorems": [
    "Nilmtk.C03_intersection_comm",
    "Nilmtk.C03_include_end_not_comm",
    "Nilmtk.C03_intersection_assoc",
    "Nilmtk.C03_intersection_idem",
    "Nilmtk.C03_intersection_units",
    "Nilmtk.C03_intersection_wellFormed"
   ],
   "note": "Equality is TimeFrame.__eq__, which ignores include_end; include_end itself is not commutative (proved)."
  },
  {
   "property": "C04",
   "status": "proved",
   "theorems": [
    "Nilmtk.C04_check_for_overlap",
    "Nilmtk.C04_touching_ok"
   ],
   "note": ""
  },
  {
   "property": "C05",
   "status": "proved",
   "theorems": [
    "Nilmtk.C05_split_tiles",
    "Nilmtk.C05_split_covers",
    "Nilmtk.C05_split_errors",
    "Nilmtk.C05_split_open_ended",
    "Nilmtk.C05_split_empty",
    "Nilmtk.C05_closed_end_lost_counterexample"
   ],
   "note": "Half-open frames; a closed end is lost when a frame is split (counterexample proved)."
  },
  {
   "property": "C06",
   "status": "proved",
   "theorems": [
    "Nilmtk.C06_merge_coverage",
    "Nilmtk.C06_merge_idempotent",
    "Nilmtk.C06_merge_negative_gap",
    "Nilmtk.C06_adjacent_iff",
    "Nilmtk.C06_adjacent_cases",
    "Nilmtk.C06_overlapping_not_merged_counterexample"
   ],
   "note": ""
  },
  {
   "property": "C07",
   "status": "proved",
   "theorems": [
    "Nilmtk.C07_union_hull",
    "Nilmtk.C07_union_open_ended"
   ],
   "note": ""
  },
  {
   "property": "C08",
   "status": "proved",
   "theorems": [
    "Nilmtk.C08_dict_round_trip",
    "Nilmtk.C08_list_round_trip",
    "Nilmtk.C08_empty_lost",
    "Nilmtk.C08_empty_becomes_unbounded"
   ],
   "note": "Timestamps are modelled as instants, so isoformat/Timestamp string conversion is taken as a bijection."
  },
  {
   "property": "C09",
   "status": "proved",
   "theorems": [
    "Nilmtk.C09_eq_equivalence_and_hash",
    "Nilmtk.C09_lt_strict_weak_order",
    "Nilmtk.C09_total_ordering_counterexample",
    "Nilmtk.C09_unbounded_start_sorts_first",
    "Nilmtk.C09_derived_operators_partial"
   ],
   "note": "The order is strict on starts; the derived <=, >= are wrong for frames with equal start and different end (counterexample proved)."
  },
  {
   "property": "C10",
   "status": "proved",
   "theorems": [
    "Nilmtk.C10_group_intersection_pointwise",
    "Nilmtk.C10_group_intersection_nonempty",
    "Nilmtk.C10_group_intersection_sorted"
   ],
   "note": ""
  },
  {
   "property": "C11",
   "status": "proved",
   "theorems": [
    "Nilmtk.C11_uptime_is_measure",
    "Nilmtk.C11_uptime_additive",
    "Nilmtk.C11_uptime_error_iff",
    "Nilmtk.C11_empty_frame_counts_zero",
    "Nilmtk.C11_uptime_split",
    "Nilmtk.C11_remove_shorter_than",
    "Nilmtk.C11_remove_shorter_than_compose"
   ],
   "note": ""
  },
  {
   "property": "C12",
   "status": "partial",
   "theorems": [
    "Nilmtk.C12_section_rows_partial",
    "Nilmtk.C12_section_rows_halfopen_partial",
    "Nilmtk.C12_single_row_lost",
    "Nilmtk.C12_single_row_counterexample",
    "Nilmtk.C12_load_rows_partial",
    "Nilmtk.C12_missing_key"
   ],
   "note": "Exact rows for every section in which the window holds at least two rows; a section with exactly one row is lost unless the load is unbounded (proved, with a counterexample)."
  },
  {
   "property": "C13",
   "status": "proved",
   "theorems": [
    "Nilmtk.C13_chunk_sizes_and_overlap",
    "Nilmtk.C13_empty_section"
   ],
   "note": ""
  },
  {
   "property": "C14",
   "status": "proved",
   "theorems": [
    "Nilmtk.C14_timeframes_tile",
    "Nilmtk.C14_load_error_iff",
    "Nilmtk.C14_unbounded_load_counterexample"
   ],
   "note": "The error case is characterised exactly: the last chunk of a section is a single row or the frame cannot be built (C14_load_error_iff); an unbounded load can fail (counterexample proved)."
  },
  {
   "property": "C15",
   "status": "proved",
   "theorems": [
    "Nilmtk.C15_csv_look_ahead_partial",
    "Nilmtk.C15_csv_no_index_name_counterexample",
    "Nilmtk.C15_look_ahead"
   ],
   "note": "For the CSV store the look-ahead is right only when the file has a header line for the index name (partial theorem and counterexample)."
  },
  {
   "property": "C16",
   "status": "proved",
   "theorems": [
    "Nilmtk.C16_csv_flag_counterexample",
    "Nilmtk.C16_flag_truthful"
   ],
   "note": "Holds for the HDF store. The CSV store never clears the flag (counterexample proved)."
  },
  {
   "property": "C17",
   "status": "partial",
   "theorems": [
    "Nilmtk.C17_csv_load_partial",
    "Nilmtk.C17_single_row_block_raises",
    "Nilmtk.C17_csv_errors",
    "Nilmtk.C17_closed_end_counterexample"
   ],
   "note": "Rows are exact for half-open sections as long as no block keeps exactly one row; a one-row block raises, and a closed end is dropped (both proved)."
  },
  {
   "property": "C18",
   "status": "partial",
   "theorems": [
    "Nilmtk.C18_all_data_partial",
    "Nilmtk.C18_chunk_size_irrelevant",
    "Nilmtk.C18_csv_all_data_partial",
    "Nilmtk.C18_error_propagates",
    "Nilmtk.C18_overlapping_sections_counterexample"
   ],
   "note": "All sections that follow one another and do not hold exactly one row; overlapping sections repeat rows (counterexample proved)."
  },
  {
   "property": "C19",
   "status": "proved",
   "theorems": [
    "Nilmtk.C19_chunk_energies_add_up",
    "Nilmtk.C19_section_energy",
    "Nilmtk.C19_chunk_size_irrelevant",
    "Nilmtk.C19_boundary_loss",
    "Nilmtk.C19_nan_counterexample",
    "Nilmtk.C19_cumulative_adds_up",
    "Nilmtk.C19_energy_column_counterexample"
   ],
   "note": "Power columns with non-NaN shared rows and cumulative energy; the NaN case and the `energy` column are refuted by proved counterexamples."
  },
  {
   "property": "C20",
   "status": "proved",
   "theorems": [
    "Nilmtk.C20_nonneg",
    "Nilmtk.C20_at_most_max_power_times_duration",
    "Nilmtk.C20_credit_limited",
    "Nilmtk.C20_exact_without_gaps",
    "Nilmtk.C20_monotone_in_power",
    "Nilmtk.C20_monotone_in_period",
    "Nilmtk.C20_linear",
    "Nilmtk.C20_too_few_readings",
    "Nilmtk.C20_constant_power",
    "Nilmtk.C20_nan_rows_ignored"
   ],
   "note": ""
  },
  {
   "property": "C21",
   "status": "proved",
   "theorems": [
    "Nilmtk.C21_source_preference",
    "Nilmtk.C21_one_entry_per_type",
    "Nilmtk.C21_fails_iff"
   ],
   "note": ""
  },
  {
   "property": "C22",
   "status": "proved",
   "theorems": [
    "Nilmtk.C22_good_sections_are_runs",
    "Nilmtk.C22_open_ended_sections",
    "Nilmtk.C22_sections_disjoint"
   ],
   "note": "One chunk, readings with distinct timestamps in any order, NaN rows ignored; also the open-ended form used inside a chunked load."
  },
  {
   "property": "C23",
   "status": "partial",
   "theorems": [
    "Nilmtk.C23_window_end_partial",
    "Nilmtk.C23_chunking_irrelevant_partial",
    "Nilmtk.C23_chunk_size_independent_partial",
    "Nilmtk.C23_nan_counterexample",
    "Nilmtk.C23_look_ahead_nan_counterexample",
    "Nilmtk.C23_sections_counterexample",
    "Nilmtk.C23_load_error"
   ],
   "note": "One section of a NaN-free table, any chunk size, full load path. False with NaN rows, with an all-NaN look-ahead (IndexError) and across several sections (flag carried over): counterexamples proved."
  },
  {
   "property": "C24",
   "status": "partial",
   "theorems": [
    "Nilmtk.C24_combined_twice_partial",
    "Nilmtk.C24_combined_twice_counterexample"
   ],
   "note": "Holds when no stored section is open towards a neighbouring row; false after a chunked load (the second call raises IndexError), counterexample proved."
  },
  {
   "property": "C25",
   "status": "proved",
   "theorems": [
    "Nilmtk.C25_dropout_in_unit_interval",
    "Nilmtk.C25_nan_iff",
    "Nilmtk.C25_losing_readings_raises",
    "Nilmtk.C25_exact_proportion"
   ],
   "note": "Exact rationals; range, NaN condition, monotonicity under lost readings and exact missing proportion on a regular grid."
  },
  {
   "property": "C26",
   "status": "partial",
   "theorems": [
    "Nilmtk.C26_weighted_mean",
    "Nilmtk.C26_between_bounds",
    "Nilmtk.C26_nan_counts_as_zero",
    "Nilmtk.C26_nan_counterexample",
    "Nilmtk.C26_chunking_counterexample"
   ],
   "note": "Weighted mean and bounds proved for chunks without NaN. A NaN chunk counts as rate 0, and the result depends on the chunk size: proved with witnesses."
  },
  {
   "property": "C27",
   "status": "partial",
   "theorems": [
    "Nilmtk.C27_two_meters",
    "Nilmtk.C27_unify_iff",
    "Nilmtk.C27_unify_error",
    "Nilmtk.C27_many_meters_bounds",
    "Nilmtk.C27_order_counterexample"
   ],
   "note": "Two meters: mean per period, exact success condition. Three or more: only bounds hold; the result is order dependent (counterexample)."
  },
  {
   "property": "C28",
   "status": "proved",
   "theorems": [
    "Nilmtk.C28_append",
    "Nilmtk.C28_invariant",
    "Nilmtk.C28_failed_append_changes_nothing",
    "Nilmtk.C28_order_irrelevant"
   ],
   "note": ""
  },
  {
   "property": "C29",
   "status": "partial",
   "theorems": [
    "Nilmtk.C29_update",
    "Nilmtk.C29_update_empty",
    "Nilmtk.C29_update_comm",
    "Nilmtk.C29_failed_update_counterexample"
   ],
   "note": "Success condition, content and commutativity proved; a failing update replaces the rows first (counterexample proved)."
  },
  {
   "property": "C30",
   "status": "partial",
   "theorems": [
    "Nilmtk.C30_unify_adds",
    "Nilmtk.C30_many_meters",
    "Nilmtk.C30_order_irrelevant",
    "Nilmtk.C30_combined_additive",
    "Nilmtk.C30_nan_counterexample",
    "Nilmtk.C30_missing_column",
    "Nilmtk.C30_columns_counterexample",
    "Nilmtk.C30_simple_total",
    "Nilmtk.C30_simple_counterexample",
    "Nilmtk.C30_export_combined",
    "Nilmtk.C30_export_unify_counterexample",
    "Nilmtk.C30_append",
    "Nilmtk.C30_append_keyError"
   ],
   "note": "Sum per period and AC type, order independence, additivity of combined for equal columns. False with NaN periods or differing columns: counterexamples proved."
  },
  {
   "property": "C31",
   "status": "partial",
   "theorems": [
    "Nilmtk.C31_transparent_partial",
    "Nilmtk.C31_cache_bypassed",
    "Nilmtk.C31_ac_type_counterexample",
    "Nilmtk.C31_zero_filled_counterexample",
    "Nilmtk.C31_chunks_counterexample",
    "Nilmtk.C31_preprocessing_counterexample",
    "Nilmtk.C31_datasets_counterexample",
    "Nilmtk.C31_overlap_counterexample"
   ],
   "note": "C31_transparent_partial: from an empty cache, every call in every history of total_energy and clear_cache calls on any meters returns the energy computed from the data, provided meters do not share a cache key, no preprocessing, the same columns for all calls on a meter, sections with bounds that do not overlap within a call, and no asked section being one of several chunks of another asked section. Each proviso is needed: C31_ac_type, C31_zero_filled, C31_chunks, C31_preprocessing, C31_datasets and C31_overlap counterexamples."
  },
  {
   "property": "C32",
   "status": "proved",
   "theorems": [
    "Nilmtk.C32_import_rows",
    "Nilmtk.C32_round_trip",
    "Nilmtk.C32_duplicate_counterexample"
   ],
   "note": "Round trip for tables with distinct periods; a cache with duplicate rows is refused (counterexample proved)."
  },
  {
   "property": "C33",
   "status": "partial",
   "theorems": [
    "Nilmtk.C33_chunked_equals_whole",
    "Nilmtk.C33_counts",
    "Nilmtk.C33_total",
    "Nilmtk.C33_first_chunk_range",
    "Nilmtk.C33_default_range",
    "Nilmtk.C33_default_range_counterexample",
    "Nilmtk.C33_errors"
   ],
   "note": "Chunked counts equal whole counts for any fixed range and bins, and sum to the number of in-range readings. With the default range the range comes from the first chunk only: counterexample proved."
  },
  {
   "property": "C34",
   "status": "partial",
   "theorems": [
    "Nilmtk.C34_clip_value",
    "Nilmtk.C34_monotone",
    "Nilmtk.C34_clip_chunk",
    "Nilmtk.C34_idempotent",
    "Nilmtk.C34_untyped_counterexample",
    "Nilmtk.C34_limits"
   ],
   "note": "Clipping is exact, monotone and idempotent for measurements that carry a type; a measurement without a type (voltage) is never clipped: counterexample proved."
  },
  {
   "property": "C35",
   "status": "proved",
   "theorems": [
    "Nilmtk.C35_best_available",
    "Nilmtk.C35_mains_preferred",
    "Nilmtk.C35_error_iff",
    "Nilmtk.C35_order"
   ],
   "note": "Selection, preference order of mains and the exact error condition."
  },
  {
   "property": "C36",
   "status": "proved",
   "theorems": [
    "Nilmtk.C36_selection",
    "Nilmtk.C36_unknown_names",
    "Nilmtk.C36_available",
    "Nilmtk.C36_no_duplicates",
    "Nilmtk.C36_unknown_quantity",
    "Nilmtk.C36_best",
    "Nilmtk.C36_explicit_columns"
   ],
   "note": ""
  },
  {
   "property": "C37",
   "status": "proved",
   "theorems": [
    "Nilmtk.C37_round_trip",
    "Nilmtk.C37_numbers",
    "Nilmtk.C37_building_text",
    "Nilmtk.C37_from_numbers",
    "Nilmtk.C37_normal_form",
    "Nilmtk.C37_injective",
    "Nilmtk.C37_slashes",
    "Nilmtk.C37_lossy_counterexample",
    "Nilmtk.C37_rejects_building",
    "Nilmtk.C37_three_parts",
    "Nilmtk.C37_rejects_number"
   ],
   "note": "Key defines no __eq__, so equality is stated as same building and meter. Text that is not canonical is accepted and changed (utility rewritten, deeper paths truncated): proved."
  },
  {
   "property": "C38",
   "status": "proved",
   "theorems": [
    "Nilmtk.C38_form",
    "Nilmtk.C38_normalised",
    "Nilmtk.C38_associative",
    "Nilmtk.C38_elements",
    "Nilmtk.C38_no_double",
    "Nilmtk.C38_inner_double_counterexample"
   ],
   "note": "A doubled slash inside one part is kept (counterexample proved)."
  },
  {
   "property": "C39",
   "status": "partial",
   "theorems": [
    "Nilmtk.C39_hdf_to_csv_partial",
    "Nilmtk.C39_missing_metadata",
    "Nilmtk.C39_hdf_node",
    "Nilmtk.C39_hdf_target_counterexample",
    "Nilmtk.C39_csv_source_counterexample",
    "Nilmtk.C39_single_row_counterexample",
    "Nilmtk.C39_chunk_boundary_counterexample",
    "Nilmtk.C39_no_devices",
    "Nilmtk.C39_csv_no_building"
   ],
   "note": "Proved for HDF to an empty CSV store with the standard layout and tables of 2..chunksize rows. False otherwise, with proofs: HDF targets raise AttributeError at the first building, CSV sources copy no rows, single-row tables are lost, tables above the chunk size get repeated boundary rows and headers."
  },
  {
   "property": "C40",
   "status": "proved",
   "theorems": [
    "Nilmtk.C40_satisfied_iff",
    "Nilmtk.C40_check_requirements",
    "Nilmtk.C40_messages"
   ],
   "note": "A plain value where a non-empty nested requirement is asked raises TypeError instead (proved as part of the characterisation)."
  },
  {
   "property": "C41",
   "status": "proved",
   "theorems": [
    "Nilmtk.C41_nearest",
    "Nilmtk.C41_tie",
    "Nilmtk.C41_empty"
   ],
   "note": "For every permutation argsort may return; an empty array raises IndexError (proved)."
  },
  {
   "property": "C42",
   "status": "proved",
   "theorems": [
    "Nilmtk.C42_optimal",
    "Nilmtk.C42_nan",
    "Nilmtk.C42_duplicate_counterexample"
   ],
   "note": "For every argsort permutation. NaN readings and repeated names in one training call are covered by separate theorems (the latter a counterexample)."
  },
  {
   "property": "C43",
   "status": "proved",
   "theorems": [
    "Nilmtk.C43_fit",
    "Nilmtk.C43_history",
    "Nilmtk.C43_table",
    "Nilmtk.C43_untrained",
    "Nilmtk.C43_no_states",
    "Nilmtk.C43_distinct"
   ],
   "note": "Predictions after any history equal those of an object that was only trained."
  },
  {
   "property": "C44",
   "status": "proved",
   "theorems": [
    "Nilmtk.C44_decode",
    "Nilmtk.C44_encode",
    "Nilmtk.C44_start",
    "Nilmtk.C44_means",
    "Nilmtk.C44_transitions",
    "Nilmtk.C44_power"
   ],
   "note": "Exact arithmetic; decode_hmm divides with true division, which is shown to agree with integer division."
  },
  {
   "property": "C45",
   "status": "proved",
   "theorems": [
    "Nilmtk.C45_start",
    "Nilmtk.C45_transitions",
    "Nilmtk.C45_empty"
   ],
   "note": "An empty list of models raises IndexError."
  },
  {
   "property": "C46",
   "status": "partial",
   "theorems": [
    "Nilmtk.C46_consistent",
    "Nilmtk.C46_sums_partial",
    "Nilmtk.C46_ties_counterexample",
    "Nilmtk.C46_ties"
   ],
   "note": "Consistency holds always; sums are preserved when the means are distinct. With equal means a state is used twice (proved in general, and a counterexample where probabilities no longer sum to one)."
  },
  {
   "property": "C47",
   "status": "proved",
   "theorems": [
    "Nilmtk.C47_clean",
    "Nilmtk.C47_pairs_valid",
    "Nilmtk.C47_pairs_disjoint",
    "Nilmtk.C47_pairs_complete",
    "Nilmtk.C47_buffer",
    "Nilmtk.C47_maximal",
    "Nilmtk.C47_eviction_counterexample"
   ],
   "note": "For all transition sequences with strictly increasing times, every buffer size and all tolerances: every pair is valid (earlier, positive, cancelling in each measured component), no transition is used twice, the buffer is a sublist of the input within its size, no pairable entries stay unmarked in the buffer, and without eviction the pairing is maximal. C47_eviction_counterexample: eviction loses pairs."
  },
  {
   "property": "C48",
   "status": "partial",
   "theorems": [
    "Nilmtk.C48_reported_partial",
    "Nilmtk.C48_meaning",
    "Nilmtk.C48_first_edge",
    "Nilmtk.C48_no_event_raises",
    "Nilmtk.C48_constant"
   ],
   "note": "Proved: equal number, same times, sorted, from the data, above the noise (all thresholds); each steady state is the mean of a maximal run without jumps and each transition the difference to an earlier one (noise >= 0). Missing because false: reporting nothing for a signal without events; C48_no_event_raises proves IndexError for every signal within a band no wider than the noise. Readings are not NaN."
  },
  {
   "property": "C49",
   "status": "partial",
   "theorems": [
    "Nilmtk.C49_exact",
    "Nilmtk.C49_values_partial",
    "Nilmtk.C49_between_partial",
    "Nilmtk.C49_off",
    "Nilmtk.C49_unknown_start",
    "Nilmtk.C49_truncation_counterexample",
    "Nilmtk.C49_last_sample_counterexample",
    "Nilmtk.C49_last_sample"
   ],
   "note": "C49_exact gives the result in closed form for every state sequence, previous state and one- or two-dimensional centroid (termination included). \"Centroid or 0\" and \"centroid between on and off\" hold for whole-number centroids (_partial); in general the integer array truncates (C49_truncation_counterexample). The last sample is dropped (C49_last_sample, counterexample)."
  },
  {
   "property": "C50",
   "status": "partial",
   "theorems": [
    "Nilmtk.C50_history",
    "Nilmtk.C50_names",
    "Nilmtk.C50_chunked_partial",
    "Nilmtk.C50_prediction",
    "Nilmtk.C50_no_rows_raises",
    "Nilmtk.C50_mean_partial",
    "Nilmtk.C50_truncation_bound",
    "Nilmtk.C50_fraction_counterexample",
    "Nilmtk.C50_nan_counterexample",
    "Nilmtk.C50_no_frames_raises"
   ],
   "note": "Chunk independence and the mean are proved for whole-number chunk sums and no NaN; C50_history and C50_truncation_bound hold for all histories. False in general: fractions are truncated per chunk, NaN rows are counted (counterexamples). One column per frame; saving and loading are the subject of C98."
  },
  {
   "property": "C51",
   "status": "partial",
   "theorems": [
    "Nilmtk.C51_cells",
    "Nilmtk.C51_power_is_sum",
    "Nilmtk.C51_order",
    "Nilmtk.C51_mean_partial",
    "Nilmtk.C51_mean_counterexample",
    "Nilmtk.C51_phase_angle_counterexample",
    "Nilmtk.C51_succeeds",
    "Nilmtk.C51_unrequested_quantity_raises"
   ],
   "note": "C51_cells: every cell, for all meters (any missing chunks, NaN, order of columns) whose tables have no repeated timestamps or columns. Sums and \"NaN exactly when no meter has a reading\" are proved in full; order of the meters does not matter; success condition, time frame (hull) and KeyError case. Missing because false: averaged quantities count meters whose row is NaN (C51_mean_counterexample), so the mean is proved for rows without NaN (C51_mean_partial); phase angle is summed (C51_phase_angle_counterexample). One chunk per meter and section, averaged quantities with empty AC type."
  },
  {
   "property": "C52",
   "status": "proved",
   "theorems": [
    "Nilmtk.C52_is_site_meter",
    "Nilmtk.C52_partition",
    "Nilmtk.C52_two_buildings_raise",
    "Nilmtk.C52_one_building_ok",
    "Nilmtk.C52_empty_nested_counterexample",
    "Nilmtk.C52_alternative_raises",
    "Nilmtk.C52_alternative_total",
    "Nilmtk.C52_alternative_exact",
    "Nilmtk.C52_alternative_twice"
   ],
   "note": "mains and submeters partition the list of meters for every nested group; is_site_meter of a nested group is \"some meter in it is a site meter\"; when mains raises; use_alternative_mains keeps every meter as often as before, exchanges exactly the site meters, undone by a second call. Equality of buildings: an empty nested group makes mains raise (counterexample)."
  },
  {
   "property": "C53",
   "status": "partial",
   "theorems": [
    "Nilmtk.C53_same_hash_equal",
    "Nilmtk.C53_eq_iff",
    "Nilmtk.C53_meter_eq_iff",
    "Nilmtk.C53_meter_ne_group",
    "Nilmtk.C53_equivalence",
    "Nilmtk.C53_order_ignored",
    "Nilmtk.C53_agree_counterexample",
    "Nilmtk.C53_disabled_counterexample",
    "Nilmtk.C53_agree_partial"
   ],
   "note": "== characterised for all nested groups, an equivalence relation, and equal hashes imply equal. The converse is false (order, disabled meters: counterexamples); C53_agree_partial proves it for groups listing their meters in one fixed order. Hashes are modelled as injective, so only \"same hash because same hashed value\" is used."
  },
  {
   "property": "C54",
   "status": "proved",
   "theorems": [
    "Nilmtk.C54_members",
    "Nilmtk.C54_no_duplicates",
    "Nilmtk.C54_duplicates_counterexample",
    "Nilmtk.C54_commutative",
    "Nilmtk.C54_idempotent",
    "Nilmtk.C54_associative",
    "Nilmtk.C54_congruent",
    "Nilmtk.C54_not_a_group",
    "Nilmtk.C54_disabled_lost_counterexample"
   ],
   "note": "For every order in which Python enumerates the set: members, no meter twice, commutative, associative, idempotent and compatible with == up to ==, TypeError for a non-group. Nested groups can appear twice although equal, since the set works on hashes (C54_duplicates_counterexample)."
  },
  {
   "property": "C55",
   "status": "partial",
   "theorems": [
    "Nilmtk.C55_hull_partial",
    "Nilmtk.C55_covers_partial",
    "Nilmtk.C55_order",
    "Nilmtk.C55_first_without_data_raises",
    "Nilmtk.C55_order_counterexample",
    "Nilmtk.C55_no_meters"
   ],
   "note": "Hull and independence of order for all nested groups in which every meter has a bounded time frame and no group is empty (_partial). Otherwise the call can raise: C55_first_without_data_raises, C55_no_meters, C55_order_counterexample."
  },
  {
   "property": "C56",
   "status": "proved",
   "theorems": [
    "Nilmtk.C56_split_point",
    "Nilmtk.C56_fraction_of_time",
    "Nilmtk.C56_single_section",
    "Nilmtk.C56_no_records",
    "Nilmtk.C56_outcomes",
    "Nilmtk.C56_empty_training_counterexample"
   ],
   "note": "For sections of whole multiples of the sample period the time divides the good records exactly (up to 500 ns of rounding); in general within n sample periods (n sections). The loop is shown to need a single pass. Good sections and sample period of the mains are inputs. C56_empty_training_counterexample: a small fraction of few records gives an empty training set."
  },
  {
   "property": "C57",
   "status": "partial",
   "theorems": [
    "Nilmtk.C57_fractions",
    "Nilmtk.C57_no_energy",
    "Nilmtk.C57_assigned_partial",
    "Nilmtk.C57_unknown_meter",
    "Nilmtk.C57_missing_prediction_counterexample",
    "Nilmtk.C57_scale_counterexample"
   ],
   "note": "Fractions: proved in full for energies that are not negative. The score: proved when every meter has an energy. Missing: NaN energies; there the claim is false: C57_missing_prediction_counterexample (a meter without prediction gets full credit, Python min with NaN). C57_unknown_meter: KeyError branch. C57_scale_counterexample: the score ignores the amount of energy. Python: meter identifiers as column index assumed to keep their attributes."
  },
  {
   "property": "C58",
   "status": "proved",
   "theorems": [
    "Nilmtk.C58_root_iff",
    "Nilmtk.C58_error_iff",
    "Nilmtk.C58_adjacent"
   ],
   "note": "Also ties the root to adjacency."
  },
  {
   "property": "C59",
   "status": "partial",
   "theorems": [
    "Nilmtk.C59_mne_value",
    "Nilmtk.C59_mne_chunking",
    "Nilmtk.C59_mne_nonneg_partial",
    "Nilmtk.C59_mne_zero_iff",
    "Nilmtk.C59_mne_negative_counterexample",
    "Nilmtk.C59_missing_prediction_counterexample",
    "Nilmtk.C59_rms_value",
    "Nilmtk.C59_rms_chunking",
    "Nilmtk.C59_rms_zero_iff"
   ],
   "note": "Values and independence of chunking proved for both metrics, over rationals. Non-negativity of the normalised error needs non-negative true power (C59_mne_negative_counterexample). Missing predictions are not errors (C59_missing_prediction_counterexample)."
  },
  {
   "property": "C60",
   "status": "partial",
   "theorems": [
    "Nilmtk.C60_activations",
    "Nilmtk.C60_disjoint_partial",
    "Nilmtk.C60_border_zero",
    "Nilmtk.C60_overlap_counterexample",
    "Nilmtk.C60_complete",
    "Nilmtk.C60_sound",
    "Nilmtk.C60_unfinished_counterexample"
   ],
   "note": "C60_activations: the result is exactly the rows of the smoothed on-periods (Pieces: ordered, begin/end at switch events, complete, separated by at least min_off, smoothed otherwise) that last min_on, with border rows added. C60_sound / C60_complete / C60_border_zero give the parts of the claim. Disjointness is proved only when the gaps are wider than the borders (C60_disjoint_partial); C60_overlap_counterexample shows two activations sharing rows. C60_unfinished_counterexample: an on-period at the start or end of the series is dropped."
  },
  {
   "property": "C61",
   "status": "proved",
   "theorems": [
    "Nilmtk.C61_aligned",
    "Nilmtk.C61_idempotent",
    "Nilmtk.C61_caller_list_changed"
   ],
   "note": "For all frames without repeated timestamps in one frame: common index = timestamps complete in all, rows unchanged, idempotent; also the caller's list is overwritten (C61_caller_list_changed)."
  },
  {
   "property": "C62",
   "status": "proved",
   "theorems": [
    "Nilmtk.C62_states",
    "Nilmtk.C62_total",
    "Nilmtk.C62_default_two",
    "Nilmtk.C62_best"
   ],
   "note": "K-means and the silhouette score are arbitrary functions that may raise; conversion to int32 is not modelled."
  },
  {
   "property": "C63",
   "status": "proved",
   "theorems": [
    "Nilmtk.C63_accepts"
   ],
   "note": "All lists of columns, both directions."
  },
  {
   "property": "C64",
   "status": "proved",
   "theorems": [
    "Nilmtk.C64_pairs",
    "Nilmtk.C64_missing"
   ],
   "note": "All groups whose submeters have integer non-zero instances or are nested groups; C64_missing: KeyError exactly when a counterpart is missing. Tuple and zero instances are not modelled."
  },
  {
   "property": "C65",
   "status": "partial",
   "theorems": [
    "Nilmtk.C65_aligned_partial",
    "Nilmtk.C65_stops",
    "Nilmtk.C65_later_errors_ignored_counterexample",
    "Nilmtk.C65_silent_slave_raises"
   ],
   "note": "Proved when each master chunk has two or more readings and the slave answers each request; C65_stops shows that the first shorter chunk ends the alignment, with C65_later_errors_ignored_counterexample as consequence. Sample period divides a day (pandas resample origin)."
  },
  {
   "property": "C66",
   "status": "proved",
   "theorems": [
    "Nilmtk.C66_harmonic",
    "Nilmtk.C66_weighted_mean",
    "Nilmtk.C66_chunking_counterexample",
    "Nilmtk.C66_partly_on_counterexample",
    "Nilmtk.C66_perfect",
    "Nilmtk.C66_states"
   ],
   "note": "The sklearn score is its documented formula (0 when undefined). The dependence on chunking, mentioned in the statement, is C66_chunking_counterexample."
  },
  {
   "property": "C67",
   "status": "partial",
   "theorems": [
    "Nilmtk.C67_appliance",
    "Nilmtk.C67_meter",
    "Nilmtk.C67_unknown_term",
    "Nilmtk.C67_metadata_total",
    "Nilmtk.C67_fewer_terms",
    "Nilmtk.C67_order",
    "Nilmtk.C67_count_counterexample",
    "Nilmtk.C67_bad_synonyms",
    "Nilmtk.C67_unknown_type"
   ],
   "note": "Proved for all terms as implemented. False for the metadata attributes `count` and `index`: hasattr(identifier, k) finds the tuple methods, so they never match (C67_count_counterexample)."
  },
  {
   "property": "C68",
   "status": "partial",
   "theorems": [
    "Nilmtk.C68_select",
    "Nilmtk.C68_select_meters",
    "Nilmtk.C68_and",
    "Nilmtk.C68_nested_counterexample",
    "Nilmtk.C68_select_list",
    "Nilmtk.C68_repeated_counterexample",
    "Nilmtk.C68_once_partial",
    "Nilmtk.C68_no_categories_raises",
    "Nilmtk.C68_building_counterexample",
    "Nilmtk.C68_group",
    "Nilmtk.C68_appliances",
    "Nilmtk.C68_group_appliances",
    "Nilmtk.C68_merged_counterexample"
   ],
   "note": "The selection, its order and its errors are proved for all groups; ANDing for meters. Missing because false: each meter once for a list of values (C68_repeated_counterexample; C68_once_partial holds when no meter matches two values), ANDing for nested groups (C68_nested_counterexample), the documented search by building via appliances (C68_building_counterexample), and errors other than KeyError are passed on (C68_no_categories_raises)."
  },
  {
   "property": "C69",
   "status": "partial",
   "theorems": [
    "Nilmtk.C69_dict",
    "Nilmtk.C69_dict_errors",
    "Nilmtk.C69_type",
    "Nilmtk.C69_unknown_type_counterexample",
    "Nilmtk.C69_instance_sound",
    "Nilmtk.C69_instance",
    "Nilmtk.C69_depth_counterexample"
   ],
   "note": "Proved for dictionaries and types, and for numbers in groups nested once. False for groups nested twice (C69_depth_counterexample) and, by type, beside an appliance of unknown type (C69_unknown_type_counterexample). Keys that are identifiers: see C64."
  },
  {
   "property": "C70",
   "status": "partial",
   "theorems": [
    "Nilmtk.C70_bounded_partial",
    "Nilmtk.C70_exceeds_counterexample",
    "Nilmtk.C70_symmetric",
    "Nilmtk.C70_self",
    "Nilmtk.C70_short",
    "Nilmtk.C70_pearson",
    "Nilmtk.C70_chunks",
    "Nilmtk.C70_nan_counterexample"
   ],
   "note": "Proved: Pearson's coefficient, chunk independence, for aligned meters without NaNs; symmetric for equal lengths; self-correlation 1; NaN cases; in [-1,1] when the second meter has no more samples than the first. Missing because false: the bound for a longer second meter (C70_exceeds_counterexample: 2), and NaNs, which count as samples (C70_nan_counterexample: -1 becomes 0.98)."
  },
  {
   "property": "C71",
   "status": "partial",
   "theorems": [
    "Nilmtk.C71_artificial",
    "Nilmtk.C71_each_building",
    "Nilmtk.C71_succeeds",
    "Nilmtk.C71_bad_prediction",
    "Nilmtk.C71_site_only",
    "Nilmtk.C71_keys_injective",
    "Nilmtk.C71_training",
    "Nilmtk.C71_positions_counterexample",
    "Nilmtk.C71_site_only_fails"
   ],
   "note": "Proved in full for DROP_ALL_NANS=True (the default), one column per meter and no repeated timestamps: own readings per building, alignment of keys and errors, success for working methods, failure for bad predictions, injective keys, training. Missing because false: DROP_ALL_NANS=False (C71_positions_counterexample: a method that is always right gets an error of 4)."
  },
  {
   "property": "C72",
   "status": "partial",
   "theorems": [
    "Nilmtk.C72_keys_injective",
    "Nilmtk.C72_each_round",
    "Nilmtk.C72_sound",
    "Nilmtk.C72_complete_partial",
    "Nilmtk.C72_loses_counterexample",
    "Nilmtk.C72_twice_counterexample"
   ],
   "note": "Proved: reports per round, soundness, injective keys; completeness when the chunks of all meters cover the same periods. Missing because false: completeness in general (C72_loses_counterexample: with chunks as loaded from HDF, three common readings and none is tested) and 'exactly once' (C72_twice_counterexample: the shared row of two chunks)."
  },
  {
   "property": "C73",
   "status": "partial",
   "theorems": [
    "Nilmtk.C73_mae",
    "Nilmtk.C73_rmse",
    "Nilmtk.C73_refused",
    "Nilmtk.C73_nde",
    "Nilmtk.C73_nde_off",
    "Nilmtk.C73_nep",
    "Nilmtk.C73_relative_partial",
    "Nilmtk.C73_r2",
    "Nilmtk.C73_r2_single",
    "Nilmtk.C73_f1",
    "Nilmtk.C73_mae_append",
    "Nilmtk.C73_unit",
    "Nilmtk.C73_relative_counterexample",
    "Nilmtk.C73_nep_counterexample",
    "Nilmtk.C73_missing_counterexample",
    "Nilmtk.C73_f1_off_counterexample",
    "Nilmtk.C73_f1_nan_counterexample"
   ],
   "note": "Proved: everything in the claim for columns without NaN, relative_error for predictions that are not negative, nep for positive energy. Missing because false: relative_error with negative predictions (C73_relative_counterexample), nep with negative readings (C73_nep_counterexample), NaN predictions for nde and nep (C73_missing_counterexample), F1 of an appliance that is never on (C73_f1_off_counterexample), NaN counted as on (C73_f1_nan_counterexample)."
  },
  {
   "property": "C74",
   "status": "partial",
   "theorems": [
    "Nilmtk.C74_conserved",
    "Nilmtk.C74_import",
    "Nilmtk.C74_no_mains",
    "Nilmtk.C74_order_counterexample",
    "Nilmtk.C74_disabled_counterexample",
    "Nilmtk.C74_no_meters_counterexample",
    "Nilmtk.C74_lost_counterexample"
   ],
   "note": "Proved: conservation for all metadata (C74_conserved), success, result and attachment exactly for ordinary metadata (C74_import). Missing because false: disabled meters of an appliance with several meters stay enabled (C74_disabled_counterexample), the order of appliances matters (C74_order_counterexample), an appliance without meters makes mains() raise (C74_no_meters_counterexample), an appliance of the mains is lost for grouped site meters (C74_lost_counterexample)."
  },
  {
   "property": "C75",
   "status": "partial",
   "theorems": [
    "Nilmtk.C75_chunk",
    "Nilmtk.C75_cut",
    "Nilmtk.C75_overlap",
    "Nilmtk.C75_hdf",
    "Nilmtk.C75_hdf_sections",
    "Nilmtk.C75_once",
    "Nilmtk.C75_simultaneous_partial",
    "Nilmtk.C75_reports",
    "Nilmtk.C75_csv_counterexample",
    "Nilmtk.C75_missing_counterexample",
    "Nilmtk.C75_repeat_counterexample"
   ],
   "note": "Proved for HDF chunks of any size (C75_hdf, C75_hdf_sections) and for submeters that report no switch twice (C75_simultaneous_partial). Missing because false: chunks that share no row (C75_csv_counterexample), missing readings (C75_missing_counterexample), repeated timestamps (C75_repeat_counterexample)."
  },
  {
   "property": "C76",
   "status": "partial",
   "theorems": [
    "Nilmtk.C76_refused",
    "Nilmtk.C76_ffill",
    "Nilmtk.C76_duplicates",
    "Nilmtk.C76_grid",
    "Nilmtk.C76_rule",
    "Nilmtk.C76_value",
    "Nilmtk.C76_filled",
    "Nilmtk.C76_default",
    "Nilmtk.C76_gap_partial",
    "Nilmtk.C76_far_partial",
    "Nilmtk.C76_bounds",
    "Nilmtk.C76_identity",
    "Nilmtk.C76_off",
    "Nilmtk.C76_own",
    "Nilmtk.C76_ambiguous_counterexample",
    "Nilmtk.C76_subsecond_counterexample",
    "Nilmtk.C76_round_counterexample",
    "Nilmtk.C76_chunk_counterexample",
    "Nilmtk.C76_dictionary_counterexample"
   ],
   "note": "Proved: index, values and filling exactly (C76_grid, C76_value, C76_filled), no missing value and no far carried value for whole seconds (C76_gap_partial, C76_far_partial), unchanged regular series (C76_identity). Missing because false: fractional sample periods (C76_round_counterexample, C76_subsecond_counterexample), chunk boundaries (C76_chunk_counterexample), re-used dictionaries (C76_dictionary_counterexample), ambiguous times (C76_ambiguous_counterexample)."
  },
  {
   "property": "C77",
   "status": "partial",
   "theorems": [
    "Nilmtk.C77_threshold",
    "Nilmtk.C77_meter_threshold",
    "Nilmtk.C77_min_on",
    "Nilmtk.C77_histogram_partial",
    "Nilmtk.C77_on",
    "Nilmtk.C77_refused",
    "Nilmtk.C77_short_counterexample",
    "Nilmtk.C77_gap_counterexample",
    "Nilmtk.C77_twice_counterexample",
    "Nilmtk.C77_long_period_counterexample"
   ],
   "note": "Proved: the histogram exactly, as the count of resampled bins that are on, for periods that divide a day (C77_histogram_partial), what on means (C77_on), refusal and thresholds. Missing because false: chunks of fewer than five bins (C77_short_counterexample), hours without readings (C77_gap_counterexample), bins cut by chunks (C77_twice_counterexample), longer periods (C77_long_period_counterexample)."
  },
  {
   "property": "C78",
   "status": "partial",
   "theorems": [
    "Nilmtk.C78_upstream",
    "Nilmtk.C78_upstream_error",
    "Nilmtk.C78_unique",
    "Nilmtk.C78_register",
    "Nilmtk.C78_graph",
    "Nilmtk.C78_one_parent",
    "Nilmtk.C78_direct",
    "Nilmtk.C78_house_partial",
    "Nilmtk.C78_group",
    "Nilmtk.C78_group_error",
    "Nilmtk.C78_two_mains_counterexample",
    "Nilmtk.C78_disabled_counterexample",
    "Nilmtk.C78_no_root_counterexample"
   ],
   "note": "Proved: upstream_meter and its errors exactly, the global list, the wiring graph exactly, one parent per meter, meters_directly_downstream_of_mains exactly (C78_direct) and, for a consistently wired house, as the meters fed by the mains (C78_house_partial), upstream of a group. Missing because false: several site meters named in two ways (C78_two_mains_counterexample), disabled mains (C78_disabled_counterexample), no submeters (C78_no_root_counterexample)."
  },
  {
   "property": "C79",
   "status": "partial",
   "theorems": [
    "Nilmtk.C79_group",
    "Nilmtk.C79_group_sum_partial",
    "Nilmtk.C79_proportion",
    "Nilmtk.C79_proportion_nan",
    "Nilmtk.C79_range",
    "Nilmtk.C79_exact",
    "Nilmtk.C79_nothing",
    "Nilmtk.C79_unshared",
    "Nilmtk.C79_submetered",
    "Nilmtk.C79_submetered_energy",
    "Nilmtk.C79_no_mains",
    "Nilmtk.C79_upstream_partial",
    "Nilmtk.C79_average",
    "Nilmtk.C79_group_counterexample",
    "Nilmtk.C79_range_counterexample",
    "Nilmtk.C79_upstream_counterexample"
   ],
   "note": "Proved: energy of a group exactly, and as a sum in any order for AC types all meters measured; proportion_of_energy with and without shared AC types, its range, exactness, zero cases; proportion_of_energy_submetered; average_energy_per_period. Missing because false: groups with mixed AC types (C79_group_counterexample), range without shared AC types and cancelling energies (C79_range_counterexample), upstream meter with a better AC type (C79_upstream_counterexample)."
  },
  {
   "property": "C80",
   "status": "partial",
   "theorems": [
    "Nilmtk.C80_roundtrip",
    "Nilmtk.C80_transparent_partial",
    "Nilmtk.C80_repeat",
    "Nilmtk.C80_compute",
    "Nilmtk.C80_compute_error",
    "Nilmtk.C80_append_only",
    "Nilmtk.C80_preprocessing",
    "Nilmtk.C80_raising",
    "Nilmtk.C80_adjacent_counterexample",
    "Nilmtk.C80_include_end_counterexample",
    "Nilmtk.C80_chunks_counterexample",
    "Nilmtk.C80_preprocessing_counterexample"
   ],
   "note": "Proved: round trip of the cached table; over any history from an empty cache the returned bounds are those of a fresh computation, and nothing is stored twice, for disjoint periods with one row each and no section open towards a later period; the node gives such rows for one chunk per section. Missing because false: adjacent periods (C80_adjacent_counterexample), include_end (C80_include_end_counterexample), several chunks (C80_chunks_counterexample), preprocessing (C80_preprocessing_counterexample)."
  },
  {
   "property": "C81",
   "status": "partial",
   "theorems": [
    "Nilmtk.C81_cells",
    "Nilmtk.C81_complete",
    "Nilmtk.C81_columns",
    "Nilmtk.C81_succeeds",
    "Nilmtk.C81_one_row_per_time",
    "Nilmtk.C81_aligned",
    "Nilmtk.C81_total",
    "Nilmtk.C81_rows",
    "Nilmtk.C81_misaligned_counterexample",
    "Nilmtk.C81_gap_counterexample",
    "Nilmtk.C81_nan_counterexample",
    "Nilmtk.C81_column_counterexample"
   ],
   "note": "Proved: soundness of cells, completeness for the rounds before the first empty round, columns, cells in every row, one row per time and NaN only without a reading for aligned chunks, exact condition of success. Missing because false: misaligned chunks (C81_misaligned_counterexample), data after an empty round (C81_gap_counterexample), NaN readings (C81_nan_counterexample), columns of meters without data (C81_column_counterexample)."
  },
  {
   "property": "C82",
   "status": "partial",
   "theorems": [
    "Nilmtk.C82_from_list",
    "Nilmtk.C82_existing",
    "Nilmtk.C82_roundtrip",
    "Nilmtk.C82_top_k",
    "Nilmtk.C82_negative_k",
    "Nilmtk.C82_from_other_counterexample",
    "Nilmtk.C82_which_error",
    "Nilmtk.C82_from_list_error",
    "Nilmtk.C82_twice_counterexample",
    "Nilmtk.C82_nested_counterexample"
   ],
   "note": "Proved: exact meaning and success condition of from_list, errors, round trip, select_top_k for any k and order of ties. Missing because false: from_other_metergroup (C82_from_other_counterexample), permuted group identifiers (C82_twice_counterexample), meters in nested groups (C82_nested_counterexample)."
  },
  {
   "property": "C83",
   "status": "proved",
   "theorems": [
    "Nilmtk.C83_cells",
    "Nilmtk.C83_calls",
    "Nilmtk.C83_error",
    "Nilmtk.C83_symmetric",
    "Nilmtk.C83_call_on_all",
    "Nilmtk.C83_asymmetric_counterexample"
   ],
   "note": "Cells, symmetry, calls made, errors. What happens for a method that is not symmetrical is shown by C83_asymmetric_counterexample."
  },
  {
   "property": "C84",
   "status": "partial",
   "theorems": [
    "Nilmtk.C84_nearest",
    "Nilmtk.C84_states",
    "Nilmtk.C84_traces",
    "Nilmtk.C84_best_fit",
    "Nilmtk.C84_best_fit_exists",
    "Nilmtk.C84_fit",
    "Nilmtk.C84_predict",
    "Nilmtk.C84_train_predict",
    "Nilmtk.C84_one_frame",
    "Nilmtk.C84_unmatched",
    "Nilmtk.C84_no_chunks",
    "Nilmtk.C84_constant",
    "Nilmtk.C84_constant_fit",
    "Nilmtk.C84_second_chunk_counterexample",
    "Nilmtk.C84_shared_counterexample",
    "Nilmtk.C84_last_step_counterexample",
    "Nilmtk.C84_later_chunk",
    "Nilmtk.C84_two_columns",
    "Nilmtk.C84_two_columns_compare",
    "Nilmtk.C84_no_match",
    "Nilmtk.C84_wrong_length"
   ],
   "note": "Proved for one chunk: C84_nearest, C84_states, C84_traces, C84_best_fit, C84_fit, C84_predict, C84_train_predict. False in general, shown by C84_second_chunk_counterexample (and C84_later_chunk), C84_shared_counterexample, C84_last_step_counterexample; chunks without steps raise (C84_constant, C84_constant_fit). Mains with two columns cannot be used for training at all: C84_two_columns."
  },
  {
   "property": "C85",
   "status": "partial",
   "theorems": [
    "Nilmtk.C85_grid_partial",
    "Nilmtk.C85_columns",
    "Nilmtk.C85_values",
    "Nilmtk.C85_member",
    "Nilmtk.C85_total_partial",
    "Nilmtk.C85_chunksize_partial",
    "Nilmtk.C85_series",
    "Nilmtk.C85_power_partial",
    "Nilmtk.C85_default_section",
    "Nilmtk.C85_last_reading_counterexample",
    "Nilmtk.C85_default_period",
    "Nilmtk.C85_no_members",
    "Nilmtk.C85_no_sections",
    "Nilmtk.C85_subsecond_counterexample",
    "Nilmtk.C85_empty_section_counterexample",
    "Nilmtk.C85_unaligned_counterexample",
    "Nilmtk.C85_midnight_counterexample",
    "Nilmtk.C85_gap_counterexample",
    "Nilmtk.C85_fraction_counterexample",
    "Nilmtk.C85_mixed_counterexample"
   ],
   "note": "Proved for whole sample periods that divide a day and sections that start on the grid: C85_grid_partial, C85_total_partial, C85_chunksize_partial, C85_power_partial; without these hypotheses C85_values, C85_columns, C85_member, C85_series, C85_default_section, C85_no_members, C85_no_sections. False in general: C85_unaligned_counterexample, C85_midnight_counterexample, C85_gap_counterexample, C85_fraction_counterexample, C85_mixed_counterexample, C85_last_reading_counterexample, C85_subsecond_counterexample, C85_empty_section_counterexample."
  },
  {
   "property": "C86",
   "status": "partial",
   "theorems": [
    "Nilmtk.C86_energy",
    "Nilmtk.C86_energy_per_period",
    "Nilmtk.C86_period_ratio",
    "Nilmtk.C86_energy_returns",
    "Nilmtk.C86_rows_add_up_partial",
    "Nilmtk.C86_rows_kept_counterexample",
    "Nilmtk.C86_repeated_counterexample",
    "Nilmtk.C86_mains_counterexample",
    "Nilmtk.C86_dropout_mean",
    "Nilmtk.C86_dropout_nan",
    "Nilmtk.C86_full_results",
    "Nilmtk.C86_full_agrees_partial",
    "Nilmtk.C86_full_differs_counterexample",
    "Nilmtk.C86_good_sections_partial",
    "Nilmtk.C86_good_sections_complete",
    "Nilmtk.C86_good_sections_counterexample",
    "Nilmtk.C86_ac_types",
    "Nilmtk.C86_ac_types_many",
    "Nilmtk.C86_physical_quantities",
    "Nilmtk.C86_proportions",
    "Nilmtk.C86_proportions_returns"
   ],
   "note": "Proved in full: C86_energy, C86_energy_per_period, C86_period_ratio, C86_energy_returns, C86_dropout_mean, C86_dropout_nan, C86_full_results, C86_good_sections_complete, C86_ac_types, C86_ac_types_many, C86_physical_quantities, C86_proportions, C86_proportions_returns. Partial: C86_rows_add_up_partial (distinct identifiers, every meter measured the type), C86_full_agrees_partial (two meters, one section), C86_good_sections_partial (one meter). False: C86_rows_kept_counterexample, C86_repeated_counterexample, C86_mains_counterexample, C86_full_differs_counterexample, C86_good_sections_counterexample."
  },
  {
   "property": "C87",
   "status": "partial",
   "theorems": [
    "Nilmtk.C87_trained",
    "Nilmtk.C87_combined",
    "Nilmtk.C87_distributions_partial",
    "Nilmtk.C87_prediction",
    "Nilmtk.C87_chunks",
    "Nilmtk.C87_training_replaces",
    "Nilmtk.C87_training_returns",
    "Nilmtk.C87_untrained",
    "Nilmtk.C87_columns_counterexample",
    "Nilmtk.C87_names_counterexample",
    "Nilmtk.C87_index_counterexample",
    "Nilmtk.C87_no_frames"
   ],
   "note": "Proved: C87_trained, C87_combined, C87_prediction, C87_chunks, C87_training_replaces, C87_training_returns, C87_untrained. C87_distributions_partial needs distinct means. False: C87_columns_counterexample, C87_names_counterexample, C87_index_counterexample."
  },
  {
   "property": "C88",
   "status": "partial",
   "theorems": [
    "Nilmtk.C88_stored_partial",
    "Nilmtk.C88_nothing_else",
    "Nilmtk.C88_converts",
    "Nilmtk.C88_empty_file",
    "Nilmtk.C88_listing",
    "Nilmtk.C88_redd_partial",
    "Nilmtk.C88_ukdale_partial",
    "Nilmtk.C88_ukdale_converts",
    "Nilmtk.C88_numbers_counterexample",
    "Nilmtk.C88_names_counterexample",
    "Nilmtk.C88_first_counterexample",
    "Nilmtk.C88_unsorted_counterexample"
   ],
   "note": "Proved: C88_nothing_else, C88_converts, C88_listing, C88_ukdale_converts; C88_stored_partial, C88_redd_partial and C88_ukdale_partial for houses of one and channels of at most two digits. False: C88_numbers_counterexample, C88_names_counterexample, C88_first_counterexample, C88_unsorted_counterexample."
  },
  {
   "property": "C89",
   "status": "partial",
   "theorems": [
    "Nilmtk.C89_opened_partial",
    "Nilmtk.C89_meters_partial",
    "Nilmtk.C89_opening_fails",
    "Nilmtk.C89_set_window",
    "Nilmtk.C89_window_decides_partial",
    "Nilmtk.C89_window_sections_partial",
    "Nilmtk.C89_window_reset",
    "Nilmtk.C89_last_window",
    "Nilmtk.C89_order_counterexample",
    "Nilmtk.C89_lost_counterexample",
    "Nilmtk.C89_import_twice_counterexample"
   ],
   "note": "Proved: C89_opening_fails, C89_set_window, C89_window_reset, C89_last_window; C89_opened_partial and C89_meters_partial for different instances; C89_window_decides_partial and C89_window_sections_partial (half-open sections, not just one row). False: C89_order_counterexample, C89_lost_counterexample, C89_import_twice_counterexample."
  },
  {
   "property": "C90",
   "status": "partial",
   "theorems": [
    "Nilmtk.C90_training_partial",
    "Nilmtk.C90_reports",
    "Nilmtk.C90_alone_partial",
    "Nilmtk.C90_together_partial",
    "Nilmtk.C90_chunks_counterexample",
    "Nilmtk.C90_shared_counterexample"
   ],
   "note": "Proved: C90_reports; C90_training_partial, C90_alone_partial and C90_together_partial for methods that are different objects (training: with DROP_ALL_NANS and one column without repeated timestamps). False: C90_chunks_counterexample (Mean, FHMMExact and Hart85 cannot be trained in chunks), C90_shared_counterexample (one object under two names)."
  },
  {
   "property": "C91",
   "status": "partial",
   "theorems": [
    "Nilmtk.C91_dominant",
    "Nilmtk.C91_dominant_group",
    "Nilmtk.C91_names_partial",
    "Nilmtk.C91_names_sound",
    "Nilmtk.C91_members",
    "Nilmtk.C91_included_partial",
    "Nilmtk.C91_partition_partial",
    "Nilmtk.C91_types_partial",
    "Nilmtk.C91_no_appliance",
    "Nilmtk.C91_category_counterexample",
    "Nilmtk.C91_identity_counterexample",
    "Nilmtk.C91_override_counterexample",
    "Nilmtk.C91_overlap_counterexample",
    "Nilmtk.C91_lost_counterexample",
    "Nilmtk.C91_mains_counterexample"
   ],
   "note": "Proved: C91_dominant, C91_dominant_group, C91_names_sound, C91_members, C91_no_appliance; C91_names_partial (appliances of the same type and number have the same entries), C91_included_partial (all appliances of the meter can be asked), C91_partition_partial and C91_types_partial (one appliance per meter). False in general: C91_identity_, C91_category_, C91_override_, C91_overlap_, C91_lost_ and C91_mains_counterexample."
  },
  {
   "property": "C92",
   "status": "partial",
   "theorems": [
    "Nilmtk.C92_threshold",
    "Nilmtk.C92_duration",
    "Nilmtk.C92_activations",
    "Nilmtk.C92_activations_total",
    "Nilmtk.C92_spans",
    "Nilmtk.C92_script",
    "Nilmtk.C92_alternates_partial",
    "Nilmtk.C92_key_injective",
    "Nilmtk.C92_file_total",
    "Nilmtk.C92_file_keys",
    "Nilmtk.C92_file_partial",
    "Nilmtk.C92_chunks_counterexample",
    "Nilmtk.C92_own_duration_counterexample",
    "Nilmtk.C92_default_counterexample",
    "Nilmtk.C92_alternation_counterexample",
    "Nilmtk.C92_same_counterexample",
    "Nilmtk.C92_no_appliance_counterexample"
   ],
   "note": "Proved: C92_threshold, C92_duration, C92_activations, C92_activations_total, C92_spans, C92_script, C92_key_injective, C92_file_total, C92_file_keys; C92_alternates_partial (no overlap), C92_file_partial (different dominant appliances). False in general: C92_chunks_, C92_own_duration_, C92_default_, C92_alternation_, C92_same_ and C92_no_appliance_counterexample."
  },
  {
   "property": "C93",
   "status": "partial",
   "theorems": [
    "Nilmtk.C93_call",
    "Nilmtk.C93_history",
    "Nilmtk.C93_key",
    "Nilmtk.C93_get",
    "Nilmtk.C93_get_metadata",
    "Nilmtk.C93_read",
    "Nilmtk.C93_put_partial",
    "Nilmtk.C93_append",
    "Nilmtk.C93_put_errors",
    "Nilmtk.C93_remove",
    "Nilmtk.C93_metadata",
    "Nilmtk.C93_elements",
    "Nilmtk.C93_load_partial",
    "Nilmtk.C93_timeframe",
    "Nilmtk.C93_timeframe_errors",
    "Nilmtk.C93_nrows",
    "Nilmtk.C93_empty_put_counterexample",
    "Nilmtk.C93_put_metadata_counterexample",
    "Nilmtk.C93_timeframe_counterexample"
   ],
   "note": "Proved: C93_call, C93_history (every history, every path), C93_key, C93_read, C93_append, C93_remove, C93_metadata, C93_elements, C93_timeframe, C93_nrows; C93_put_partial (frames with rows), C93_load_partial (at least two rows, one chunk). False in general: C93_empty_put_, C93_put_metadata_ and C93_timeframe_counterexample."
  },
  {
   "property": "C94",
   "status": "partial",
   "theorems": [
    "Nilmtk.C94_history",
    "Nilmtk.C94_writes_total",
    "Nilmtk.C94_read",
    "Nilmtk.C94_getitem_counterexample",
    "Nilmtk.C94_getitem_missing",
    "Nilmtk.C94_load_partial",
    "Nilmtk.C94_timeframe",
    "Nilmtk.C94_timeframe_errors",
    "Nilmtk.C94_root_metadata",
    "Nilmtk.C94_building_metadata",
    "Nilmtk.C94_paths",
    "Nilmtk.C94_paths_injective",
    "Nilmtk.C94_append_counterexample",
    "Nilmtk.C94_slash_counterexample",
    "Nilmtk.C94_location_counterexample"
   ],
   "note": "Proved: C94_history, C94_writes_total, C94_read (exactly when a table can be read back), C94_getitem_missing, C94_timeframe, C94_root_metadata, C94_building_metadata, C94_paths, C94_paths_injective; C94_load_partial (one frame of at least two rows, one chunk). False in general: C94_append_, C94_getitem_, C94_slash_ and C94_location_counterexample."
  },
  {
   "property": "C95",
   "status": "partial",
   "theorems": [
    "Nilmtk.C95_save",
    "Nilmtk.C95_rows_partial",
    "Nilmtk.C95_readable",
    "Nilmtk.C95_metadata_partial",
    "Nilmtk.C95_nothing",
    "Nilmtk.C95_interrupted",
    "Nilmtk.C95_untrained",
    "Nilmtk.C95_covers",
    "Nilmtk.C95_train",
    "Nilmtk.C95_arguments",
    "Nilmtk.C95_fhmm_partial",
    "Nilmtk.C95_collision_counterexample",
    "Nilmtk.C95_shared_counterexample",
    "Nilmtk.C95_dataset_counterexample"
   ],
   "note": "Proved: C95_nothing, C95_interrupted, C95_untrained, C95_covers, C95_train, C95_arguments, C95_save, C95_readable; C95_rows_partial, C95_metadata_partial and C95_fhmm_partial for submeters with distinct instances, none of them 1. False in general: C95_collision_, C95_shared_ and C95_dataset_counterexample."
  },
  {
   "property": "C96",
   "status": "partial",
   "theorems": [
    "Nilmtk.C96_export_partial",
    "Nilmtk.C96_export_stops",
    "Nilmtk.C96_roundtrip_partial",
    "Nilmtk.C96_import_unreadable",
    "Nilmtk.C96_import_store",
    "Nilmtk.C96_import_no_name",
    "Nilmtk.C96_import_interrupted",
    "Nilmtk.C96_fhmm_export_partial",
    "Nilmtk.C96_fhmm_export_stops",
    "Nilmtk.C96_fhmm_roundtrip_partial",
    "Nilmtk.C96_fhmm_failures",
    "Nilmtk.C96_hart",
    "Nilmtk.C96_hart_untrained",
    "Nilmtk.C96_export_counterexample",
    "Nilmtk.C96_fhmm_export_counterexample",
    "Nilmtk.C96_import_counterexample"
   ],
   "note": "Proved: C96_export_stops, C96_import_unreadable, C96_import_store, C96_import_interrupted, C96_fhmm_export_stops, C96_hart, C96_hart_untrained; the _partial theorems for meters with different identifiers in HDF stores (identifiers differ after training, C95_train). False without HDF stores: C96_export_counterexample, C96_fhmm_export_counterexample; a failed import is not undone: C96_import_counterexample."
  },
  {
   "property": "C97",
   "status": "partial",
   "theorems": [
    "Nilmtk.C97_rows_partial",
    "Nilmtk.C97_sections",
    "Nilmtk.C97_single",
    "Nilmtk.C97_stops",
    "Nilmtk.C97_untrained",
    "Nilmtk.C97_sections_counterexample",
    "Nilmtk.C97_unknown_counterexample",
    "Nilmtk.C97_unlearnt_counterexample"
   ],
   "note": "Proved: C97_sections, C97_single, C97_stops, C97_untrained; C97_rows_partial for sections that the caller passes. Without sections the claim is false for several buildings: C97_sections_counterexample; and without a learnt appliance in the building: C97_unknown_counterexample, C97_unlearnt_counterexample."
  },
  {
   "property": "C98",
   "status": "proved",
   "theorems": [
    "Nilmtk.C98_roundtrip",
    "Nilmtk.C98_truncated",
    "Nilmtk.C98_trailing",
    "Nilmtk.C98_text",
    "Nilmtk.C98_ascii",
    "Nilmtk.C98_saved",
    "Nilmtk.C98_resume",
    "Nilmtk.C98_raising",
    "Nilmtk.C98_recover",
    "Nilmtk.C98_retry_counterexample",
    "Nilmtk.C98_init",
    "Nilmtk.C98_unsaved",
    "Nilmtk.C98_others",
    "Nilmtk.C98_clear"
   ],
   "note": "C98_retry_counterexample records that repeating a failed call with the same object counts twice."
  },
  {
   "property": "C99",
   "status": "partial",
   "theorems": [
    "Nilmtk.C99_refit",
    "Nilmtk.C99_refit_meters_partial",
    "Nilmtk.C99_refit_stops",
    "Nilmtk.C99_refit_order_counterexample",
    "Nilmtk.C99_dred",
    "Nilmtk.C99_dred_refused",
    "Nilmtk.C99_hipe",
    "Nilmtk.C99_hipe_stops",
    "Nilmtk.C99_missing"
   ],
   "note": "That meter 1 is the aggregate of a REFIT house is proved for files with the columns in the usual order; C99_refit_order_counterexample shows that other orders break it. The rest is proved in full."
  },
  {
   "property": "C100",
   "status": "proved",
   "theorems": [
    "Nilmtk.C100_fit",
    "Nilmtk.C100_refused",
    "Nilmtk.C100_combinations",
    "Nilmtk.C100_predictions",
    "Nilmtk.C100_two_calls_counterexample"
   ],
   "note": "C100_two_calls_counterexample records that the limit counts the appliances of the call."
  },
  {
   "property": "C101",
   "status": "partial",
   "theorems": [
    "Nilmtk.C101_extract_partial",
    "Nilmtk.C101_no_grid",
    "Nilmtk.C101_convert_partial",
    "Nilmtk.C101_instances",
    "Nilmtk.C101_columns",
    "Nilmtk.C101_building",
    "Nilmtk.C101_chunks_counterexample",
    "Nilmtk.C101_two_files_counterexample"
   ],
   "note": "Proved where the panels are recorded in all rows of a building or in none (C101_chunks_counterexample shows that this matters) and, for the meaning of the tables, where a building lies in one file (C101_two_files_counterexample); C101_convert_partial gives the tables exactly for any number of files."
  },
  {
   "property": "C102",
   "status": "proved",
   "theorems": [
    "Nilmtk.C102_unify",
    "Nilmtk.C102_order",
    "Nilmtk.C102_many",
    "Nilmtk.C102_refused"
   ],
   "note": "Sections are half-open, as the node makes them before combined() is called."
  },
  {
   "property": "C103",
   "status": "partial",
   "theorems": [
    "Nilmtk.C103_phases_partial",
    "Nilmtk.C103_plugs_partial",
    "Nilmtk.C103_only_partial",
    "Nilmtk.C103_found_partial",
    "Nilmtk.C103_succeeds_partial",
    "Nilmtk.C103_phase_order_partial",
    "Nilmtk.C103_plug_order_partial",
    "Nilmtk.C103_checked_partial",
    "Nilmtk.C103_full_days_partial",
    "Nilmtk.C103_few_plugs_counterexample"
   ],
   "note": "Theorems ask for one of the two documented layouts of folders of plugs (three directories of plugs or more, or one directory with all of them); with one or two plugs directly in the folder their readings are lost (counterexample). The reading of dates and the formula of the reactive power are inputs; the order of times asks for one folder per building."
  },
  {
   "property": "C104",
   "status": "partial",
   "theorems": [
    "Nilmtk.C104_labels_partial",
    "Nilmtk.C104_mixed_partial",
    "Nilmtk.C104_plain",
    "Nilmtk.C104_few_columns",
    "Nilmtk.C104_no_rows",
    "Nilmtk.C104_no_place",
    "Nilmtk.C104_zero",
    "Nilmtk.C104_unlabelled_counterexample",
    "Nilmtk.C104_order_counterexample",
    "Nilmtk.C104_listed_counterexample"
   ],
   "note": "The theorem on labels asks that every column has a label, that repeated ones have building and instance, that no generated name is again a repeated label and that the names are distinct; otherwise entries can be lost (counterexample). The texts of building and instance are inputs (for an ElecMeter both are methods, whose text is that of a bound method). Indices have no time twice; values are rationals, the square root is real; np.NaN is assumed to exist (numpy below 2)."
  },
  {
   "property": "C105",
   "status": "partial",
   "theorems": [
    "Nilmtk.C105_table_partial",
    "Nilmtk.C105_raises",
    "Nilmtk.C105_energy_partial",
    "Nilmtk.C105_energy_zero",
    "Nilmtk.C105_mne_partial",
    "Nilmtk.C105_rms_partial",
    "Nilmtk.C105_f1_partial",
    "Nilmtk.C105_buildings_counterexample",
    "Nilmtk.C105_coverage_counterexample"
   ],
   "note": "The theorems on tables ask that no two submeters of the predictions have the same instance (counterexample otherwise). Good sections, energies and aligned chunks are inputs; nested groups are not empty. The documentation promises a number of kWh per meter; the value is a Series with one number per AC type."
  },
  {
   "property": "C106",
   "status": "partial",
   "theorems": [
    "Nilmtk.C106_succeeds",
    "Nilmtk.C106_only",
    "Nilmtk.C106_stored_partial",
    "Nilmtk.C106_raises",
    "Nilmtk.C106_folders",
    "Nilmtk.C106_parent",
    "Nilmtk.C106_name",
    "Nilmtk.C106_sensor",
    "Nilmtk.C106_kinds",
    "Nilmtk.C106_overwritten_counterexample",
    "Nilmtk.C106_documented_counterexample"
   ],
   "note": "A file is only guaranteed to be kept if no later file has its home and number (counterexample otherwise). The theorems on what is stored assume the names of the documentation; other names are covered by C106_name and C106_sensor. The parsing of times and the order of equal times are inputs; the metadata is not modelled."
  },
  {
   "property": "C107",
   "status": "partial",
   "theorems": [
    "Nilmtk.C107_appliance",
    "Nilmtk.C107_appliance_pretty",
    "Nilmtk.C107_appliance_pretty_counterexample",
    "Nilmtk.C107_long",
    "Nilmtk.C107_long_counterexample",
    "Nilmtk.C107_pretty",
    "Nilmtk.C107_pretty_named",
    "Nilmtk.C107_pretty_counterexample",
    "Nilmtk.C107_group",
    "Nilmtk.C107_group_named",
    "Nilmtk.C107_default_counterexample",
    "Nilmtk.C107_get_labels",
    "Nilmtk.C107_get_labels_error",
    "Nilmtk.C107_null_name"
   ],
   "note": "Labels do not identify meters in general: counterexamples for pretty labels, for names that imitate labels, for digits in types and for the default of `pretty`. Upper and lower case are those of ASCII letters and texts are printable; the order of the labels of a group (a Python set) is an input."
  },
  {
   "property": "C108",
   "status": "partial",
   "theorems": [
    "Nilmtk.C108_stored_partial",
    "Nilmtk.C108_raises",
    "Nilmtk.C108_only",
    "Nilmtk.C108_relative",
    "Nilmtk.C108_order_counterexample",
    "Nilmtk.C108_rows_counterexample",
    "Nilmtk.C108_suffix_counterexample",
    "Nilmtk.C108_four_counterexample",
    "Nilmtk.C108_times_counterexample"
   ],
   "note": "The theorem on what is stored asks that no appliance column occurs in two tables of a year and that the first table of a year has its own times; otherwise appliances are split or the conversion fails (counterexamples). Rows are not sorted by time (counterexample). The reading of times is an input; the time zone is not modelled."
  },
  {
   "property": "C109",
   "status": "partial",
   "theorems": [
    "Nilmtk.C109_steps",
    "Nilmtk.C109_quiet_raises",
    "Nilmtk.C109_nothing_raises",
    "Nilmtk.C109_train",
    "Nilmtk.C109_train_fails",
    "Nilmtk.C109_rows_partial",
    "Nilmtk.C109_returns",
    "Nilmtk.C109_quiet_chunk",
    "Nilmtk.C109_untrained",
    "Nilmtk.C109_empty_chunk",
    "Nilmtk.C109_no_series",
    "Nilmtk.C109_boundary_counterexample",
    "Nilmtk.C109_forgets_counterexample",
    "Nilmtk.C109_mains_counterexample",
    "Nilmtk.C109_retrain_counterexample"
   ],
   "note": "One column of power; MeanShift and the chunks loaded are inputs. The whole statement a user would rely on is false of the code: steps at the beginning of a chunk are lost, the state of a device is forgotten at the end of a chunk, only the last chunk of the mains is stored, and a failed training changes the levels (counterexamples); the theorems say what is done instead."
  },
  {
   "property": "C110",
   "status": "partial",
   "theorems": [
    "Nilmtk.C110_coverage",
    "Nilmtk.C110_download",
    "Nilmtk.C110_unknown_table",
    "Nilmtk.C110_default_raises",
    "Nilmtk.C110_open_period_raises",
    "Nilmtk.C110_one_feed_partial",
    "Nilmtk.C110_ignored",
    "Nilmtk.C110_feeds",
    "Nilmtk.C110_tables",
    "Nilmtk.C110_mixed_counterexample",
    "Nilmtk.C110_empty_counterexample",
    "Nilmtk.C110_twice_counterexample",
    "Nilmtk.C110_last_counterexample"
   ],
   "note": "The database is what its queries return, on one clock; tz_localize is an input; connections, rooms and the parts of metadata that are always the same are left out. The whole statement a user would rely on is false of the code: feeds of different chunks are mixed in one meter, the metadata are those of the last chunk, a table whose name is part of another's is stored twice, and the last reading is missing (counterexamples)."
  },
  {
   "property": "C111",
   "status": "partial",
   "theorems": [
    "Nilmtk.C111_device",
    "Nilmtk.C111_device_error",
    "Nilmtk.C111_own_device_partial",
    "Nilmtk.C111_period",
    "Nilmtk.C111_columns",
    "Nilmtk.C111_ac_types",
    "Nilmtk.C111_group_period",
    "Nilmtk.C111_group_period_errors",
    "Nilmtk.C111_group_period_none",
    "Nilmtk.C111_upstream_partial",
    "Nilmtk.C111_upstream_error_partial",
    "Nilmtk.C111_reopen",
    "Nilmtk.C111_later_counterexample",
    "Nilmtk.C111_reopen_counterexample",
    "Nilmtk.C111_unnamed_counterexample"
   ],
   "note": "Appliances and failing imports are left out; that returned devices are copies is not expressible with values. The whole statement is false of the code: a dataset opened later changes devices of the same name, and a dataset opened again (or two datasets without a name) gets upstream meters of the store opened first (counterexamples)."
  },
  {
   "property": "C112",
   "status": "partial",
   "theorems": [
    "Nilmtk.C112_cumulative_partial",
    "Nilmtk.C112_energy_partial",
    "Nilmtk.C112_energy_counterexample",
    "Nilmtk.C112_other_counterexample",
    "Nilmtk.C112_meter_partial",
    "Nilmtk.C112_redd_partial",
    "Nilmtk.C112_constant_partial",
    "Nilmtk.C112_windows_add_partial",
    "Nilmtk.C112_no_data",
    "Nilmtk.C112_repeated_time_counterexample",
    "Nilmtk.C112_window_counterexample",
    "Nilmtk.C112_sections_partial",
    "Nilmtk.C112_sections_counterexample"
   ],
   "note": "Tables have one column, as REDD's, and nothing is cached; no ac_type, columns or preprocessing is given. The whole statement is false of the code for files with a repeated time and windows divided between readings, the reading at the end of the window counts though it is not loaded, and energy per interval in several chunks counts the shared readings twice (counterexamples)."
  },
  {
   "property": "C113",
   "status": "partial",
   "theorems": [
    "Nilmtk.C113_given_section_partial",
    "Nilmtk.C113_sections_partial",
    "Nilmtk.C113_few_readings",
    "Nilmtk.C113_uptime",
    "Nilmtk.C113_whole_partial",
    "Nilmtk.C113_redd_partial",
    "Nilmtk.C113_proportion",
    "Nilmtk.C113_monotone",
    "Nilmtk.C113_windows_add",
    "Nilmtk.C113_no_data",
    "Nilmtk.C113_window_counterexample"
   ],
   "note": "Tables have one column, as REDD's, without missing readings, and nothing is cached; no preprocessing is given. For these the uptime is characterised completely (C113_uptime), with its ValueError. The whole statement is false of the code for windows which end at a lone reading and windows with a single reading (counterexamples)."
  },
  {
   "property": "C114",
   "status": "partial",
   "theorems": [
    "Nilmtk.C114_power_partial",
    "Nilmtk.C114_best_partial",
    "Nilmtk.C114_no_power",
    "Nilmtk.C114_sections_partial",
    "Nilmtk.C114_redd_partial",
    "Nilmtk.C114_energy",
    "Nilmtk.C114_no_table",
    "Nilmtk.C114_request_error",
    "Nilmtk.C114_no_column",
    "Nilmtk.C114_other_column_counterexample",
    "Nilmtk.C114_lone_row_counterexample",
    "Nilmtk.C114_chunk_size_counterexample"
   ],
   "note": "No resampling or preprocessing; the name of the series is left out. With sections = None the result is characterised completely (C114_power_partial), including its ValueError and the loss of a lone row, for which the whole statement is false of the code (counterexamples)."
  },
  {
   "property": "C115",
   "status": "partial",
   "theorems": [
    "Nilmtk.C115_pieces_partial",
    "Nilmtk.C115_one_chunk_partial",
    "Nilmtk.C115_sections_partial",
    "Nilmtk.C115_good_sections_partial",
    "Nilmtk.C115_bounds",
    "Nilmtk.C115_complete",
    "Nilmtk.C115_ignore_gaps",
    "Nilmtk.C115_load_error",
    "Nilmtk.C115_full_results",
    "Nilmtk.C115_few_readings",
    "Nilmtk.C115_no_table",
    "Nilmtk.C115_redd_partial",
    "Nilmtk.C115_redd_good_partial",
    "Nilmtk.C115_chunk_size_counterexample",
    "Nilmtk.C115_last_reading_counterexample"
   ],
   "note": "The result is characterised completely for every chunk size and window (C115_pieces_partial, C115_sections_partial, C115_good_sections_partial); that it is the share lost of all readings is proved for one chunk (C115_one_chunk_partial) and false in general (C115_chunk_size_counterexample, C115_last_reading_counterexample). Tables with one column, nothing cached."
  },
  {
   "property": "C116",
   "status": "partial",
   "theorems": [
    "Nilmtk.C116_uptime_partial",
    "Nilmtk.C116_frame_partial",
    "Nilmtk.C116_constant_partial",
    "Nilmtk.C116_gapless",
    "Nilmtk.C116_redd_partial",
    "Nilmtk.C116_errors",
    "Nilmtk.C116_gap_counterexample",
    "Nilmtk.C116_window_counterexample"
   ],
   "note": "The result is characterised completely (C116_uptime_partial, C116_frame_partial, C116_redd_partial); that it is the energy used per period of uptime is proved without gaps (C116_gapless) and false with gaps or windows ending between readings (C116_gap_counterexample, C116_window_counterexample). Tables with one column, nothing cached; the length of the period is an input."
  },
  {
   "property": "C117",
   "status": "partial",
   "theorems": [
    "Nilmtk.C117_proportion_partial",
    "Nilmtk.C117_submetered_partial",
    "Nilmtk.C117_accounted",
    "Nilmtk.C117_range",
    "Nilmtk.C117_redd_partial",
    "Nilmtk.C117_errors",
    "Nilmtk.C117_sampling_counterexample",
    "Nilmtk.C117_dead_phase_counterexample"
   ],
   "note": "The results are characterised completely when the mains have two readings in the window (C117_proportion_partial, C117_submetered_partial, C117_redd_partial); that loads accounting for the power of the mains have proportion one holds for equal reading times (C117_accounted, C117_range) and is false otherwise (C117_sampling_counterexample, C117_dead_phase_counterexample). Tables with one column, nothing cached; which meters are mains and downstream are inputs; a meter, not a group, as self."
  },
  {
   "property": "C118",
   "status": "partial",
   "theorems": [
    "Nilmtk.C118_total_partial",
    "Nilmtk.C118_mixed",
    "Nilmtk.C118_average_partial",
    "Nilmtk.C118_sum",
    "Nilmtk.C118_frame_partial",
    "Nilmtk.C118_describe_partial",
    "Nilmtk.C118_share",
    "Nilmtk.C118_redd_partial",
    "Nilmtk.C118_redd_describe_partial",
    "Nilmtk.C118_errors",
    "Nilmtk.C118_uptime_counterexample",
    "Nilmtk.C118_silent_counterexample"
   ],
   "note": "The results are characterised completely for meters with two readings each (C118_total_partial, C118_average_partial, C118_frame_partial, C118_describe_partial, C118_redd_partial, C118_redd_describe_partial). That the average of a group is the sum of those of its meters holds for the same covered time (C118_sum) and is false otherwise (C118_uptime_counterexample); that the energy of a group is that of all its meters is false if one is silent or of another AC type (C118_silent_counterexample, C118_mixed). Tables with one column, nothing cached; describe only without the expensive statistics; the frame theorems are about the window without limits."
  },
  {
   "property": "C119",
   "status": "partial",
   "theorems": [
    "Nilmtk.C119_best_partial",
    "Nilmtk.C119_fractions_partial",
    "Nilmtk.C119_whole",
    "Nilmtk.C119_top_k_partial",
    "Nilmtk.C119_redd_partial",
    "Nilmtk.C119_redd_top_k_partial",
    "Nilmtk.C119_errors",
    "Nilmtk.C119_listed_counterexample",
    "Nilmtk.C119_types_counterexample",
    "Nilmtk.C119_mixed_counterexample"
   ],
   "note": "The fractions and the selection are characterised completely for meters with two readings each whose device has the AC type of its table as the best one (C119_best_partial, C119_fractions_partial, C119_whole, C119_top_k_partial, C119_redd_partial, C119_redd_top_k_partial). Otherwise the claim is false: a device that lists a better AC type than its table has loses its energy (C119_listed_counterexample), one whose quantities have different best AC types raises KeyError (C119_types_counterexample), and energies of different AC types are added (C119_mixed_counterexample). Tables with one column, nothing cached."
  },
  {
   "property": "C120",
   "status": "partial",
   "theorems": [
    "Nilmtk.C120_meter_partial",
    "Nilmtk.C120_few",
    "Nilmtk.C120_group_partial",
    "Nilmtk.C120_redd_meter_partial",
    "Nilmtk.C120_redd_group_partial",
    "Nilmtk.C120_errors",
    "Nilmtk.C120_outside",
    "Nilmtk.C120_first_chunk_counterexample",
    "Nilmtk.C120_last_reading_counterexample",
    "Nilmtk.C120_limits_counterexample"
   ],
   "note": "The first chunk of a meter and all chunks of a group are characterised completely for tables with one column of power, whole numbers of seconds as sample period and, for groups, meters with two readings in the window (C120_meter_partial, C120_few, C120_group_partial, C120_redd_meter_partial, C120_redd_group_partial, C120_errors, C120_outside). That next() has all readings is false beyond chunksize + 1 readings (C120_first_chunk_counterexample), a group loses its last reading (C120_last_reading_counterexample), and the limits of the device are not applied (C120_limits_counterexample). No time zones, preprocessing, resample_kwargs or columns argument."
  },
  {
   "property": "C121",
   "status": "partial",
   "theorems": [
    "Nilmtk.C121_loaded_partial",
    "Nilmtk.C121_mean_partial",
    "Nilmtk.C121_succeeds",
    "Nilmtk.C121_redd_partial",
    "Nilmtk.C121_errors",
    "Nilmtk.C121_first_chunk_counterexample"
   ],
   "note": "Training, prediction and the report are characterised completely for buildings each of whose meters has one column of power and between two and chunksize + 1 readings in the window, whole numbers of seconds as sample period and DROP_ALL_NANS (C121_loaded_partial, C121_mean_partial, C121_redd_partial), with success and failure (C121_succeeds, C121_errors). With more readings than that only the first chunk is seen (C121_first_chunk_counterexample). One method, one meter per appliance, no chunk_size, no time zones, exact arithmetic."
  },
  {
   "property": "C122",
   "status": "partial",
   "theorems": [
    "Nilmtk.C122_refit_partial",
    "Nilmtk.C122_dred_partial",
    "Nilmtk.C122_hipe_partial",
    "Nilmtk.C122_limit_counterexample"
   ],
   "note": "For columns without missing values and repeated times and with at least two readings, and for REFIT files with the columns in the usual order (C122_refit_partial, C122_dred_partial, C122_hipe_partial). The limits of 5000 W in the metadata cut larger readings (C122_limit_counterexample). Time zones, parsing and float rounding are not modelled."
  },
  {
   "property": "C123",
   "status": "partial",
   "theorems": [
    "Nilmtk.C123_stored",
    "Nilmtk.C123_own_partial",
    "Nilmtk.C123_copies",
    "Nilmtk.C123_own_counterexample",
    "Nilmtk.C123_metadata",
    "Nilmtk.C123_no_mains"
   ],
   "note": "What is stored is characterised for all inputs (C123_stored). That a meter has the readings of its own appliance is false (C123_own_counterexample, C123_copies) and proved when every chunk has one appliance only (C123_own_partial). The metadata are characterised (C123_metadata); mains are never in them (C123_no_mains). The list of houses, which pandas 2 refuses to read in this way, 32 bit rounding and the parsing of dates are not modelled."
  },
  {
   "property": "C124",
   "status": "partial",
   "theorems": [
    "Nilmtk.C124_blocks",
    "Nilmtk.C124_data_lines",
    "Nilmtk.C124_stored",
    "Nilmtk.C124_processes_partial",
    "Nilmtk.C124_described",
    "Nilmtk.C124_processes_counterexample",
    "Nilmtk.C124_new_pandas"
   ],
   "note": "The division into blocks (C124_blocks, C124_data_lines, every file but those with a broken header is covered by C124_described) and what is stored or refused (C124_stored) are proved for all inputs. That multiprocessing makes no difference is false (C124_processes_counterexample) and proved for directories listed by name (C124_processes_partial). With pandas 2 or later every file with a header first is a TypeError (C124_new_pandas). How pandas parses a block, time zones, 32 bit rounding and the metadata are not modelled; which of several rows with one time is kept depends on the sort, which is an input."
  },
  {
   "property": "C125",
   "status": "partial",
   "theorems": [
    "Nilmtk.C125_ampds",
    "Nilmtk.C125_ampds_refused",
    "Nilmtk.C125_combed",
    "Nilmtk.C125_combed_stops",
    "Nilmtk.C125_combed_numbers",
    "Nilmtk.C125_combed_power_counterexample",
    "Nilmtk.C125_combed_stored_counterexample",
    "Nilmtk.C125_combed_power_partial"
   ],
   "note": "What is stored and refused is proved for all inputs for AMPds (C125_ampds, C125_ampds_refused) and for COMBED (C125_combed, C125_combed_stops, C125_combed_numbers). That a meter of COMBED with power is stored, and that a stored one has power, are false (C125_combed_power_counterexample, C125_combed_stored_counterexample) and proved if there is a file of the current too (C125_combed_power_partial). Both converters are a TypeError with pandas 2 or later, which is not modelled; neither are text in columns, 32 bit rounding, time zones and metadata."
  },
  {
   "property": "C126",
   "status": "partial",
   "theorems": [
    "Nilmtk.C126_stored",
    "Nilmtk.C126_measured_counterexample",
    "Nilmtk.C126_measured_partial"
   ],
   "note": "What is stored and refused is proved for all inputs (C126_stored). That what is stored was measured is false (C126_measured_counterexample); that what was measured is stored as the mean of its minute is proved (C126_measured_partial). The converter is a TypeError with pandas 2 or later, which is not modelled; neither are files in which two columns have the same meaning, 32 bit rounding, time zones and metadata."
  },
  {
   "property": "C127",
   "status": "proved",
   "theorems": [
    "Nilmtk.C127_stored",
    "Nilmtk.C127_refused"
   ],
   "note": "C127_stored for the files that are accepted, C127_refused for all others; together they cover all inputs of the model. The converter is a TypeError with pandas 2 or later, which is not modelled; neither are cells that are not numbers, missing times, 32 bit rounding, time zones and metadata."
  },
  {
   "property": "C128",
   "status": "partial",
   "theorems": [
    "Nilmtk.C128_slice_partial",
    "Nilmtk.C128_refused",
    "Nilmtk.C128_open_counterexample",
    "Nilmtk.C128_tiles",
    "Nilmtk.C128_split",
    "Nilmtk.C128_twice"
   ],
   "note": "C128_slice_partial is for TimeFrames that are not empty and have both bounds; all others are refused (C128_refused), so the full statement is false (C128_open_counterexample). Consecutive TimeFrames: C128_tiles, C128_split; slicing twice: C128_twice."
  },
  {
   "property": "C129",
   "status": "partial",
   "theorems": [
    "Nilmtk.C129_smallest_partial",
    "Nilmtk.C129_best_partial",
    "Nilmtk.C129_few_rows",
    "Nilmtk.C129_errors",
    "Nilmtk.C129_no_column",
    "Nilmtk.C129_larger_window",
    "Nilmtk.C129_lone_row_counterexample"
   ],
   "note": "C129_smallest_partial and C129_best_partial need two rows in the window and, without a window, chunks that do not leave one row; otherwise see C129_few_rows and C129_lone_row_counterexample. Sections and resampling are not covered."
  },
  {
   "property": "C130",
   "status": "proved",
   "theorems": [
    "Nilmtk.C130_dry_run",
    "Nilmtk.C130_checks_pass",
    "Nilmtk.C130_more_nodes",
    "Nilmtk.C130_total_energy",
    "Nilmtk.C130_refused",
    "Nilmtk.C130_on_meter",
    "Nilmtk.C130_clip_then_energy"
   ],
   "note": "recursively_update_dict belongs to nilm_metadata and is modelled from its documentation, not from source: a list of the source replaces that of the target. get_metadata with results is not covered."
  },
  {
   "property": "C131",
   "status": "partial",
   "theorems": [
    "Nilmtk.C131_metadata",
    "Nilmtk.C131_promise_partial",
    "Nilmtk.C131_statistics",
    "Nilmtk.C131_clip_counterexample",
    "Nilmtk.C131_energy_counterexample"
   ],
   "note": "C131_promise_partial needs nodes whose results have all of their postconditions; C131_clip_counterexample and C131_energy_counterexample show that Clip and TotalEnergy are not such nodes. recursively_update_dict of nilm_metadata is modelled from its documentation, with a list replaced and not extended."
  },
  {
   "property": "C132",
   "status": "partial",
   "theorems": [
    "Nilmtk.C132_edges",
    "Nilmtk.C132_chunk",
    "Nilmtk.C132_runs",
    "Nilmtk.C132_counts",
    "Nilmtk.C132_durations",
    "Nilmtk.C132_crop_partial",
    "Nilmtk.C132_duration_counterexample"
   ],
   "note": "C132_crop_partial says nothing of durations, for which the claim is false (C132_duration_counterexample). Meters have different identifiers, and resampled chunks have no missing reading."
  },
  {
   "property": "C133",
   "status": "proved",
   "theorems": [
    "Nilmtk.C133_disaggregate",
    "Nilmtk.C133_units",
    "Nilmtk.C133_error"
   ],
   "note": "The likelihood of a run is an input, numbers are rational, and the chunk has one column without missing readings."
  },
  {
   "property": "C134",
   "status": "proved",
   "theorems": [
    "Nilmtk.C134_stored",
    "Nilmtk.C134_refused",
    "Nilmtk.C134_no_data",
    "Nilmtk.C134_boundary_counterexample"
   ],
   "note": "Resampling is an input; the metadata written at the end are the subject of C136. As in C133 the likelihood is an input and numbers are rational. C134_boundary_counterexample is the lost run."
  },
  {
   "property": "C135",
   "status": "partial",
   "theorems": [
    "Nilmtk.C135_hdf_existing",
    "Nilmtk.C135_hdf_write",
    "Nilmtk.C135_csv_partial",
    "Nilmtk.C135_refused",
    "Nilmtk.C135_no_name",
    "Nilmtk.C135_dataset",
    "Nilmtk.C135_again",
    "Nilmtk.C135_csv_write_counterexample",
    "Nilmtk.C135_csv_read_counterexample",
    "Nilmtk.C135_csv_again_counterexample"
   ],
   "note": "False for CSV, of which the mode is ignored: writing keeps what is there (C135_csv_write_counterexample), so that a conversion run again stores its rows twice (C135_csv_again_counterexample), and reading a name that stands for nothing makes a directory (C135_csv_read_counterexample). False without a name: None is returned, or AttributeError raised (C135_no_name). The rest is proved."
  },
  {
   "property": "C136",
   "status": "partial",
   "theorems": [
    "Nilmtk.C136_metadata_partial",
    "Nilmtk.C136_refused"
   ],
   "note": "False for appliance and sample period: C136_metadata_partial shows that every model is described as one of a kettle with a sample period of 10 seconds, since both are written out in the code. The rest is proved; names with the date in them are left out."
  }
 ]
}