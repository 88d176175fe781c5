{
 "claims": [
  {
   "property": "C01",
   "status": "proved",
   "theorems": [
    "GeNSIT.C01_one_margin_moves_rows",
    "GeNSIT.C01_one_margin_moves_cols"
   ],
   "note": "Rows and columns case; any fixed cells, any integer multiple."
  },
  {
   "property": "C02",
   "status": "proved",
   "theorems": [
    "GeNSIT.C02_both_margin_moves"
   ],
   "note": "For every outcome of the random partner choice."
  },
  {
   "property": "C03",
   "status": "proved",
   "theorems": [
    "GeNSIT.C03_rows_complete",
    "GeNSIT.C03_cols_complete",
    "GeNSIT.C03_length"
   ],
   "note": "Completeness, uniqueness and the length formula."
  },
  {
   "property": "C04",
   "status": "proved",
   "theorems": [
    "GeNSIT.C04_connected_rows",
    "GeNSIT.C04_connected_cols"
   ],
   "note": "Connectivity of the whole fibre with fixed cells, rows and columns case."
  },
  {
   "property": "C05",
   "status": "partial",
   "theorems": [
    "GeNSIT.C05_not_connected",
    "GeNSIT.C05_connected_two_by_two_partial",
    "GeNSIT.C05_lattice_connected_partial"
   ],
   "note": "False as stated (C05_not_connected: 2x3 witness, generator keeps one random partner per cell). Proved: the 2x2 case, and connectivity of the integer lattice when entries may go negative."
  },
  {
   "property": "C06",
   "status": "proved",
   "theorems": [
    "GeNSIT.C06_degree_one_step"
   ],
   "note": "Every move, step and uniform draw; negative proposals are rejected. The step may raise instead (see C10)."
  },
  {
   "property": "C07",
   "status": "proved",
   "theorems": [
    "GeNSIT.C07_degree_higher_step",
    "GeNSIT.C07_fallback_can_go_negative"
   ],
   "note": "Support value v keeps margins, fixed cells, and non-negativity iff v is in the support. The exception fallback 0 can go negative (C07_fallback_can_go_negative)."
  },
  {
   "property": "C08",
   "status": "proved",
   "theorems": [
    "GeNSIT.C08_chain_invariant"
   ],
   "note": "Induction over reachable tables, all implemented proposals."
  },
  {
   "property": "C09",
   "status": "proved",
   "theorems": [
    "GeNSIT.C09_step_size_support"
   ],
   "note": "Both signs of rectangle moves."
  },
  {
   "property": "C10",
   "status": "partial",
   "theorems": [
    "GeNSIT.C10_raises_iff",
    "GeNSIT.C10_ratio_wrong",
    "GeNSIT.C10_log_ratio_partial",
    "GeNSIT.C10_exact",
    "GeNSIT.C10_acceptance"
   ],
   "note": "False as stated: C10_ratio_wrong and C10_raises_iff. Proved for entries in {0,1}."
  },
  {
   "property": "C11",
   "status": "proved",
   "theorems": [
    "GeNSIT.C11_direct_sampling_admissible",
    "GeNSIT.C11_direct_sampling_returns"
   ],
   "note": "Returned table is admissible; the first admissible output is returned."
  },
  {
   "property": "C12",
   "status": "proved",
   "theorems": [
    "GeNSIT.C12_multinomial_total"
   ],
   "note": ""
  },
  {
   "property": "C13",
   "status": "partial",
   "theorems": [
    "GeNSIT.C13_rows_partial",
    "GeNSIT.C13_columns_misplaced",
    "GeNSIT.C13_fixed_cells_clobbered"
   ],
   "note": "False for columns and with fixed cells (negations proved). Proved for rows without fixed cells."
  },
  {
   "property": "C14",
   "status": "proved",
   "theorems": [
    "GeNSIT.C14_monte_carlo",
    "GeNSIT.C14_fixed_cells",
    "GeNSIT.C14_fixed_cells_false"
   ],
   "note": "Every permutation of 1..N, no fixed cells."
  },
  {
   "property": "C15",
   "status": "proved",
   "theorems": [
    "GeNSIT.C15_max_entropy",
    "GeNSIT.C15_returned_admissible"
   ],
   "note": "Termination bound and result for every random sequence, no fixed cells; returned tables are admissible also with fixed cells."
  },
  {
   "property": "C16",
   "status": "proved",
   "theorems": [
    "GeNSIT.C16_residual_margins"
   ],
   "note": "Whenever propagation returns (it raises when a constrained line has exactly one free cell, see C17)."
  },
  {
   "property": "C17",
   "status": "partial",
   "theorems": [
    "GeNSIT.C17_no_single_unknown_partial",
    "GeNSIT.C17_inference_raises",
    "GeNSIT.C17_single_unknown_is_forced"
   ],
   "note": "False as stated: propagation raises exactly when it would infer a cell (C17_inference_raises). Proved: when it returns, no constrained line has a single unknown; and a single unknown would be forced."
  },
  {
   "property": "C18",
   "status": "proved",
   "theorems": [
    "GeNSIT.C18_inferred_axes_are_the_closure",
    "GeNSIT.C18_inference_idempotent"
   ],
   "note": "Any number of dimensions."
  },
  {
   "property": "C19",
   "status": "proved",
   "theorems": [
    "GeNSIT.C19_axes_partition",
    "GeNSIT.C19_same_length_complement"
   ],
   "note": "Any number of dimensions."
  },
  {
   "property": "C20",
   "status": "proved",
   "theorems": [
    "GeNSIT.C20_table_admissible_iff"
   ],
   "note": "Two-way tables."
  },
  {
   "property": "C21",
   "status": "proved",
   "theorems": [
    "GeNSIT.C21_distribution_name"
   ],
   "note": "Two-way axes."
  },
  {
   "property": "C22",
   "status": "partial",
   "theorems": [
    "GeNSIT.C22_never_replaced",
    "GeNSIT.C22_fisher_partial"
   ],
   "note": "False for Poisson/multinomial/product-multinomial (comparison instead of assignment, C22_never_replaced). Proved for Fisher."
  },
  {
   "property": "C23",
   "status": "proved",
   "theorems": [
    "GeNSIT.C23_margins_from_table"
   ],
   "note": ""
  },
  {
   "property": "C24",
   "status": "proved",
   "theorems": [
    "GeNSIT.C24_cycle_moves"
   ],
   "note": "Every label order, every fixed-cell set. This generator exists but is not called by generate (MarkovBasis.py:661)."
  },
  {
   "property": "C25",
   "status": "proved",
   "theorems": [
    "GeNSIT.C25_canonical_form",
    "GeNSIT.C25_no_repeats"
   ],
   "note": ""
  },
  {
   "property": "C26",
   "status": "proved",
   "theorems": [
    "GeNSIT.C26_constraint_table"
   ],
   "note": ""
  },
  {
   "property": "C27",
   "status": "proved",
   "theorems": [
    "GeNSIT.C27_update_filters",
    "GeNSIT.C27_import_filters",
    "GeNSIT.C27_unfiltered_without_fixed_cells"
   ],
   "note": "update_markov_basis: any list, any fixed cells. import_markov_basis applies it only when some cell is fixed (C27_unfiltered_without_fixed_cells)."
  },
  {
   "property": "C28",
   "status": "proved",
   "theorems": [
    "GeNSIT.C28_set_then_get",
    "GeNSIT.C28_set_then_get_plain",
    "GeNSIT.C28_get_exact"
   ],
   "note": "Any dictionary, any non-empty path, any value except the marker string not-found; also without overwrite when the containers exist."
  },
  {
   "property": "C29",
   "status": "partial",
   "theorems": [
    "GeNSIT.C29_frame_partial",
    "GeNSIT.C29_overwrite_loses_siblings"
   ],
   "note": "False with overwrite (C29_overwrite_loses_siblings). Proved without overwrite, and with overwrite for paths starting with another key."
  },
  {
   "property": "C30",
   "status": "partial",
   "theorems": [
    "GeNSIT.C30_true_without_storing",
    "GeNSIT.C30_success_partial"
   ],
   "note": "False: C30_true_without_storing (a missing intermediate key). Proved with overwrite or when the container is a dictionary."
  },
  {
   "property": "C31",
   "status": "partial",
   "theorems": [
    "GeNSIT.C31_find_exact_partial",
    "GeNSIT.C31_find_up_to_order_partial",
    "GeNSIT.C31_repeated_key_wrong_path",
    "GeNSIT.C31_default_argument_accumulates"
   ],
   "note": "False when a key repeats along a path (C31_repeated_key_wrong_path), and results accumulate across calls that use the default argument. Proved exactly without repeats; in general one result per occurrence up to the order of its components."
  },
  {
   "property": "C32",
   "status": "proved",
   "theorems": [
    "GeNSIT.C32_exists_iff_found"
   ],
   "note": "Every tree."
  },
  {
   "property": "C33",
   "status": "partial",
   "theorems": [
    "GeNSIT.C33_delete_partial",
    "GeNSIT.C33_delete_missing",
    "GeNSIT.C33_list_deletion_shifts",
    "GeNSIT.C33_numeric_key_not_deleted",
    "GeNSIT.C33_numeric_strings_are_indices"
   ],
   "note": "False for list elements and numeric-string keys (negations proved). Proved for dictionary entries; missing paths."
  },
  {
   "property": "C34",
   "status": "proved",
   "theorems": [
    "GeNSIT.C34_merge_values",
    "GeNSIT.C34_merge_keys",
    "GeNSIT.C34_merge_total"
   ],
   "note": "Values, other paths, key order at every level, and when it returns."
  },
  {
   "property": "C35",
   "status": "proved",
   "theorems": [
    "GeNSIT.C35_product",
    "GeNSIT.C35_no_duplicates",
    "GeNSIT.C35_rows_kept",
    "GeNSIT.C35_tuple_values_misaligned"
   ],
   "note": "Values that are not tuples, coupled rows that print differently; general facts for arbitrary rows; tuple values misalign (C35_tuple_values_misaligned)."
  },
  {
   "property": "C36",
   "status": "proved",
   "theorems": [
    "GeNSIT.C36_experiment_config"
   ],
   "note": "Unrelated paths through dictionaries. The base settings are copied before being written (deepcopy), so the model returns a new tree."
  },
  {
   "property": "C37",
   "status": "partial",
   "theorems": [
    "GeNSIT.C37_order_independent_partial",
    "GeNSIT.C37_order_dependent",
    "GeNSIT.C37_distinct_ids_partial",
    "GeNSIT.C37_sigma_collides",
    "GeNSIT.C37_dataset_not_recorded"
   ],
   "note": "False in general: order dependent when names share the part before the first underscore (C37_order_dependent), sigma recorded only by regime, dataset not recorded. Proved otherwise, components without slash."
  },
  {
   "property": "C38",
   "status": "partial",
   "theorems": [
    "GeNSIT.C38_lengths_checked_partial",
    "GeNSIT.C38_equal_lengths_accepted",
    "GeNSIT.C38_files_not_checked"
   ],
   "note": "False for parameters whose paths end in the same component, e.g. file (C38_files_not_checked). Proved when the last components differ."
  },
  {
   "property": "C39",
   "status": "partial",
   "theorems": [
    "GeNSIT.C39_partition",
    "GeNSIT.C39_group_by_respected_partial",
    "GeNSIT.C39_coupled_group_by_ignored"
   ],
   "note": "Partition proved for all inputs; grouping respected for isolated parameters and target names; grouping by another coupled parameter is ignored (C39_coupled_group_by_ignored)."
  },
  {
   "property": "C40",
   "status": "partial",
   "theorems": [
    "GeNSIT.C40_slice_filters_partial",
    "GeNSIT.C40_keeps_different_values"
   ],
   "note": "Filters, keeping what is equal or within ten percent; hence not only equal values (C40_keeps_different_values)."
  },
  {
   "property": "C41",
   "status": "partial",
   "theorems": [
    "GeNSIT.C41_inclusive_partial",
    "GeNSIT.C41_missing",
    "GeNSIT.C41_exclusive_partial",
    "GeNSIT.C41_exclusive_false"
   ],
   "note": "inclusive checks and missing values proved; exclusive checks with an upper limit refuse everything (proved as C41_exclusive_false)"
  },
  {
   "property": "C42",
   "status": "partial",
   "theorems": [
    "GeNSIT.C42_pair_partial",
    "GeNSIT.C42_step_partial",
    "GeNSIT.C42_descending_false",
    "GeNSIT.C42_colons_partial",
    "GeNSIT.C42_large_false",
    "GeNSIT.C42_repeat_partial",
    "GeNSIT.C42_list_partial",
    "GeNSIT.C42_missing_component",
    "GeNSIT.C42_not_a_number",
    "GeNSIT.C42_negative_repeat",
    "GeNSIT.C42_plain_text_crashes",
    "GeNSIT.C42_list_failures"
   ],
   "note": "proved for bounds and steps up to 2^24; above that single precision changes the bounds (C42_large_false); descending ranges stop two short (C42_descending_false)"
  },
  {
   "property": "C43",
   "status": "partial",
   "theorems": [
    "GeNSIT.C43_get_outermost_partial",
    "GeNSIT.C43_get_misses_nested",
    "GeNSIT.C43_delete_partial",
    "GeNSIT.C43_delete_then_get_partial",
    "GeNSIT.C43_delete_skips_lists",
    "GeNSIT.C43_update_partial",
    "GeNSIT.C43_update_skips_nested_lists"
   ],
   "note": "deep_get yields outermost occurrences only; deep_delete skips lists; deep_update skips lists in lists (negations proved). Proved otherwise."
  },
  {
   "property": "C44",
   "status": "proved",
   "theorems": [
    "GeNSIT.C44_text_roundtrip",
    "GeNSIT.C44_text_shape",
    "GeNSIT.C44_dict_roundtrip",
    "GeNSIT.C44_sparse_dict",
    "GeNSIT.C44_pair_roundtrip",
    "GeNSIT.C44_vector"
   ],
   "note": "text, dictionary and pair round trips; shape of what is read; sparse dictionaries"
  },
  {
   "property": "C45",
   "status": "proved",
   "theorems": [
    "GeNSIT.C45_chunks",
    "GeNSIT.C45_each_once"
   ],
   "note": "chunks and submitted jobs"
  },
  {
   "property": "C46",
   "status": "partial",
   "theorems": [
    "GeNSIT.C46_bound",
    "GeNSIT.C46_conservation_partial",
    "GeNSIT.C46_progress_partial",
    "GeNSIT.C46_leak_false",
    "GeNSIT.C46_zero_false",
    "GeNSIT.C46_order"
   ],
   "note": "bound for all executions; conservation and progress without raising submissions; the leak and the zero bound are proved as negations"
  },
  {
   "property": "C47",
   "status": "proved",
   "theorems": [
    "GeNSIT.C47_permutation",
    "GeNSIT.C47_sequential",
    "GeNSIT.C47_failures"
   ],
   "note": "for every completed execution of the executor model; behaviour of failing tasks stated too"
  },
  {
   "property": "C48",
   "status": "partial",
   "theorems": [
    "GeNSIT.C48_first_free",
    "GeNSIT.C48_serial_partial",
    "GeNSIT.C48_race_false",
    "GeNSIT.C48_full_false",
    "GeNSIT.C48_crash_leaks_false"
   ],
   "note": "first free slot proved; distinctness proved for serialised claims; race and overflow proved as negations"
  },
  {
   "property": "C49",
   "status": "proved",
   "theorems": [
    "GeNSIT.C49_indices",
    "GeNSIT.C49_one_slice",
    "GeNSIT.C49_each_dimension_once",
    "GeNSIT.C49_kept_coordinates",
    "GeNSIT.C49_never_empty"
   ],
   "note": "slices naming one dimension of the sample; stacked multi-dimension slices are not modelled"
  },
  {
   "property": "C50",
   "status": "partial",
   "theorems": [
    "GeNSIT.C50_rows_partial",
    "GeNSIT.C50_one_per_iteration_partial",
    "GeNSIT.C50_count_partial",
    "GeNSIT.C50_epochs_partial",
    "GeNSIT.C50_loss_false",
    "GeNSIT.C50_unlisted_false",
    "GeNSIT.C50_known_samples"
   ],
   "note": "proved for the parameter, table, attraction, acceptance and timing datasets; the loss datasets and unlisted ones never receive rows (C50_loss_false, C50_unlisted_false)"
  },
  {
   "property": "C51",
   "status": "partial",
   "theorems": [
    "GeNSIT.C51_time_partial",
    "GeNSIT.C51_time_false"
   ],
   "note": "holds iff write_every divides a positive write_start; otherwise the first row is mislabelled (C51_time_false)"
  },
  {
   "property": "C52",
   "status": "proved",
   "theorems": [
    "GeNSIT.C52_never_overwritten",
    "GeNSIT.C52_leaves_file",
    "GeNSIT.C52_truncated_stays"
   ],
   "note": "every crash point included; C52_truncated_stays shows that a truncated file is then kept for good"
  },
  {
   "property": "C53",
   "status": "proved",
   "theorems": [
    "GeNSIT.C53_partition",
    "GeNSIT.C53_groups_differ"
   ],
   "note": "partition, agreement inside groups, and maximal merging"
  },
  {
   "property": "C54",
   "status": "proved",
   "theorems": [
    "GeNSIT.C54_batches"
   ],
   "note": "rational store_progress"
  },
  {
   "property": "C55",
   "status": "proved",
   "theorems": [
    "GeNSIT.C55_row_total",
    "GeNSIT.C55_positive",
    "GeNSIT.C55_grand_total"
   ],
   "note": "Any number of iterations and sweeps; zero demand and zero total included (torch.log 0 = -inf is modelled). Exact reals."
  },
  {
   "property": "C56",
   "status": "proved",
   "theorems": [
    "GeNSIT.C56_total",
    "GeNSIT.C56_positive"
   ],
   "note": "Any number of iterations and sweeps. Exact reals."
  },
  {
   "property": "C57",
   "status": "proved",
   "theorems": [
    "GeNSIT.C57_box",
    "GeNSIT.C57_box_given_table",
    "GeNSIT.C57_outside_rejected",
    "GeNSIT.C57_flag",
    "GeNSIT.C57_history",
    "GeNSIT.C57_joint_history"
   ],
   "note": "One step, outside-rejection, flag, and any history of either sampler; exact arithmetic."
  },
  {
   "property": "C58",
   "status": "partial",
   "theorems": [
    "GeNSIT.C58_reversible",
    "GeNSIT.C58_bijective",
    "GeNSIT.C58_ais_step",
    "GeNSIT.C58_ratio_antisymmetric",
    "GeNSIT.C58_attraction_frozen",
    "GeNSIT.C58_attraction_false",
    "GeNSIT.C58_volume_preserving",
    "GeNSIT.C58_accept_probability",
    "GeNSIT.C58_detailed_balance"
   ],
   "note": "Annealing leapfrog: reversible, bijective, volume preserving, Metropolis probability and detailed balance w.r.t. exp(-H) proved. The attraction updates freeze the data gradient at the previous sample, so their trajectory is not reversible (C58_attraction_frozen gives the exact trajectory, C58_attraction_false refutes)."
  },
  {
   "property": "C59",
   "status": "proved",
   "theorems": [
    "GeNSIT.C59_hpd",
    "GeNSIT.C59_raises",
    "GeNSIT.C59_coverage"
   ],
   "note": "Exact arithmetic; also the exception case and the coverage flag. Strengthened: minimal among all intervals, not only among windows."
  },
  {
   "property": "C60",
   "status": "proved",
   "theorems": [
    "GeNSIT.C60_symm",
    "GeNSIT.C60_zero_iff",
    "GeNSIT.C60_triangle",
    "GeNSIT.C60_shortest"
   ],
   "note": "Metric axioms for all integer tables; for counts with equal totals it is the length of the shortest sequence of unit transfers."
  },
  {
   "property": "C61",
   "status": "partial",
   "theorems": [
    "GeNSIT.C61_activation_names",
    "GeNSIT.C61_activation_unknown",
    "GeNSIT.C61_sigmoid_false",
    "GeNSIT.C61_architecture",
    "GeNSIT.C61_raises_iff",
    "GeNSIT.C61_overrides_partial",
    "GeNSIT.C61_negative_false",
    "GeNSIT.C61_bias",
    "GeNSIT.C61_activations",
    "GeNSIT.C61_activation_dict_raises",
    "GeNSIT.C61_layers"
   ],
   "note": "Proved: the exact list built and exactly when the call raises; full property for dictionaries of distinct in-range layer numbers; built layers chain. False (proved): negative layer numbers wrap instead of raising; dictionary activation entries always raise."
  },
  {
   "property": "C62",
   "status": "partial",
   "theorems": [
    "GeNSIT.C62_regime_partial",
    "GeNSIT.C62_regime_other",
    "GeNSIT.C62_two_classifications_disagree",
    "GeNSIT.C62_model_regime",
    "GeNSIT.C62_disagree_iff"
   ],
   "note": "Classification of sigma_to_noise_regime proved for all rationals; the physical model classifies differently (C62_two_classifications_disagree)."
  },
  {
   "property": "C63",
   "status": "proved",
   "theorems": [
    "GeNSIT.C63_cycle_search_exact"
   ],
   "note": "Every graph and bound."
  },
  {
   "property": "C64",
   "status": "partial",
   "theorems": [
    "GeNSIT.C64_cycle_basis_connects_partial",
    "GeNSIT.C64_long_cycles_missed"
   ],
   "note": "Proved when the table has at most five rows or at most five columns; false in general because max_length=10 (C64_long_cycles_missed)."
  },
  {
   "property": "C65",
   "status": "proved",
   "theorems": [
    "GeNSIT.C65_flatten",
    "GeNSIT.C65_flatten_collision"
   ],
   "note": "Also: repeated keys collide, the last wins (C65_flatten_collision)."
  },
  {
   "property": "C66",
   "status": "proved",
   "theorems": [
    "GeNSIT.C66_update_stores",
    "GeNSIT.C66_modify_true_without_storing",
    "GeNSIT.C66_modify_through_list",
    "GeNSIT.C66_modify_stores",
    "GeNSIT.C66_modify_missing"
   ],
   "note": "Trees of dictionaries without repeated keys along a path. path_modify reports success without storing (C66_modify_true_without_storing)."
  },
  {
   "property": "C67",
   "status": "partial",
   "theorems": [
    "GeNSIT.C67_totally_batch",
    "GeNSIT.C67_production_reads_row",
    "GeNSIT.C67_production_partial",
    "GeNSIT.C67_production_batch_false"
   ],
   "note": "Proved for the totally-constrained model. For the production-constrained model the tiled cost matrix is reshaped wrongly: exact row read proved (C67_production_reads_row), false with several sweeps (C67_production_batch_false), proved for one sweep or one origin."
  },
  {
   "property": "C68",
   "status": "partial",
   "theorems": [
    "GeNSIT.C68_demand_partial",
    "GeNSIT.C68_demand_total",
    "GeNSIT.C68_single_origin_false"
   ],
   "note": "Proved with at least two origins; false for one origin because of torch.squeeze (C68_single_origin_false)."
  },
  {
   "property": "C69",
   "status": "partial",
   "theorems": [
    "GeNSIT.C69_gradient",
    "GeNSIT.C69_same_dynamics",
    "GeNSIT.C69_fixed_point",
    "GeNSIT.C69_production_raises",
    "GeNSIT.C69_production_gradient",
    "GeNSIT.C69_production_false"
   ],
   "note": "Proved for the totally-constrained model. For the production-constrained model the potential normalises over the wrong axis: it raises on rectangular tables and its gradient ignores costs (C69_production_raises, C69_production_gradient, C69_production_false)."
  },
  {
   "property": "C70",
   "status": "proved",
   "theorems": [
    "GeNSIT.C70_ais_gradient",
    "GeNSIT.C70_data_gradient",
    "GeNSIT.C70_ais_is_flat_model"
   ],
   "note": "Exact reals."
  },
  {
   "property": "C71",
   "status": "proved",
   "theorems": [
    "GeNSIT.C71_steps",
    "GeNSIT.C71_symmetric"
   ],
   "note": "Algebraic symmetry of the reflected step; the normal law is symmetric in each absolute coordinate. Diagonal proposal covariance is assumed (the code draws one independent normal per coordinate)."
  },
  {
   "property": "C72",
   "status": "proved",
   "theorems": [
    "GeNSIT.C72_potential_cache",
    "GeNSIT.C72_joint_potential_cache"
   ],
   "note": "Both samplers."
  },
  {
   "property": "C73",
   "status": "partial",
   "theorems": [
    "GeNSIT.C73_theta_partial",
    "GeNSIT.C73_attraction_stale",
    "GeNSIT.C73_tables_partial",
    "GeNSIT.C73_attraction_false",
    "GeNSIT.C73_scaling_false"
   ],
   "note": "Holds after theta steps and, when the scaling factor is 1, after table steps; false after accepted attraction steps (C73_attraction_false) and with a scaling factor other than 1 (C73_scaling_false)."
  },
  {
   "property": "C74",
   "status": "partial",
   "theorems": [
    "GeNSIT.C74_likelihood_gradient",
    "GeNSIT.C74_likelihood_value",
    "GeNSIT.C74_ratio_ignores_data",
    "GeNSIT.C74_false"
   ],
   "note": "False: the data likelihood is evaluated at the previous sample on both sides and cancels (C74_ratio_ignores_data is the exact rule, C74_false the refutation)."
  },
  {
   "property": "C75",
   "status": "proved",
   "theorems": [
    "GeNSIT.C75_weight_formula",
    "GeNSIT.C75_exact_for_shift"
   ],
   "note": "Exact arithmetic; the linear temperature schedule used by the code."
  },
  {
   "property": "C76",
   "status": "partial",
   "theorems": [
    "GeNSIT.C76_gradient_negated",
    "GeNSIT.C76_gradient_false"
   ],
   "note": "False: autograd gives the derivative and the code negates it (C76_gradient_negated exact, C76_gradient_false refutation)."
  },
  {
   "property": "C77",
   "status": "proved",
   "theorems": [
    "GeNSIT.C77_least",
    "GeNSIT.C77_terminates",
    "GeNSIT.C77_zero_diverges",
    "GeNSIT.C77_law"
   ],
   "note": "A draw of exactly 0 makes the loop run forever (C77_zero_diverges)."
  },
  {
   "property": "C78",
   "status": "partial",
   "theorems": [
    "GeNSIT.C78_value",
    "GeNSIT.C78_false"
   ],
   "note": "False: torch.range includes its end point, so a spurious last term (N+2 - Y_N)(N+1)^k is added. C78_value gives the exact value, C78_false the refutation."
  },
  {
   "property": "C79",
   "status": "proved",
   "theorems": [
    "GeNSIT.C79_poisson",
    "GeNSIT.C79_multinomial",
    "GeNSIT.C79_product_multinomial",
    "GeNSIT.C79_fisher",
    "GeNSIT.C79_fisher_scaling",
    "GeNSIT.C79_cross_ratio"
   ],
   "note": "All four distributions, all dimensions; exact reals."
  },
  {
   "property": "C80",
   "status": "partial",
   "theorems": [
    "GeNSIT.C80_multinomial",
    "GeNSIT.C80_product_multinomial",
    "GeNSIT.C80_poisson_false",
    "GeNSIT.C80_fisher_false"
   ],
   "note": "Proved for multinomial and product multinomial; false for Poisson (C80_poisson_false) and for Fisher (C80_fisher_false)."
  },
  {
   "property": "C81",
   "status": "partial",
   "theorems": [
    "GeNSIT.C81_loss_partial",
    "GeNSIT.C81_product_loss_transposed",
    "GeNSIT.C81_product_loss_false",
    "GeNSIT.C81_normalised_false"
   ],
   "note": "Poisson, multinomial and Fisher losses agree; the product multinomial loss normalises columns (C81_product_loss_transposed, C81_product_loss_false); the normalised multinomial swaps its arguments (C81_normalised_false)."
  },
  {
   "property": "C82",
   "status": "proved",
   "theorems": [
    "GeNSIT.C82_mean_affine",
    "GeNSIT.C82_var_affine",
    "GeNSIT.C82_sign_flip",
    "GeNSIT.C82_same_sign",
    "GeNSIT.C82_var_negative"
   ],
   "note": "With mixed signs the variance can be negative (C82_var_negative)."
  },
  {
   "property": "C83",
   "status": "proved",
   "theorems": [
    "GeNSIT.C83_undefined",
    "GeNSIT.C83_range",
    "GeNSIT.C83_symm"
   ],
   "note": ""
  },
  {
   "property": "C84",
   "status": "partial",
   "theorems": [
    "GeNSIT.C84_inflated",
    "GeNSIT.C84_single_partial",
    "GeNSIT.C84_false",
    "GeNSIT.C84_zero_iff"
   ],
   "note": "Exact value is sqrt(M) times the specified one (C84_inflated); right for one sample, false otherwise (C84_false)."
  },
  {
   "property": "C85",
   "status": "partial",
   "theorems": [
    "GeNSIT.C85_config_ignored",
    "GeNSIT.C85_trial_partial",
    "GeNSIT.C85_config_overwritten",
    "GeNSIT.C85_false"
   ],
   "note": "False as stated, with witness: getattr on a dict never finds the entry, so built-in defaults are always used and the configuration is overwritten with them (proved). Trial suggestions are honoured (proved)."
  },
  {
   "property": "C86",
   "status": "partial",
   "theorems": [
    "GeNSIT.C86_steps",
    "GeNSIT.C86_batch_one_partial",
    "GeNSIT.C86_false",
    "GeNSIT.C86_mean"
   ],
   "note": "False for batch size > 1, with witness: accumulated losses are reset after every element. Exact list of gradient steps proved for all inputs; full property for batch size 1; mean over identical samples."
  },
  {
   "property": "C87",
   "status": "proved",
   "theorems": [
    "GeNSIT.C87_int",
    "GeNSIT.C87_float",
    "GeNSIT.C87_str",
    "GeNSIT.C87_allow_nan",
    "GeNSIT.C87_allow_nan_false",
    "GeNSIT.C87_numeric_text"
   ],
   "note": "Exact acceptance sets for integers, floats and strings; the allow-nan variant has its own exact set (C87_allow_nan) and C87_allow_nan_false shows that it does not imply the declared type."
  },
  {
   "property": "C88",
   "status": "partial",
   "theorems": [
    "GeNSIT.C88_bool_unchecked",
    "GeNSIT.C88_bool_false"
   ],
   "note": "False of the code (C88_bool_false); the exact behaviour - everything is accepted - is C88_bool_unchecked."
  },
  {
   "property": "C89",
   "status": "partial",
   "theorems": [
    "GeNSIT.C89_file",
    "GeNSIT.C89_extension_false",
    "GeNSIT.C89_extension_partial",
    "GeNSIT.C89_directory",
    "GeNSIT.C89_allow_nan"
   ],
   "note": "Exact acceptance for files and directories; the extension clause is false for schemas like the shipped one (C89_extension_false) and true only for schemas having both keys (C89_extension_partial)."
  },
  {
   "property": "C90",
   "status": "partial",
   "theorems": [
    "GeNSIT.C90_list_of_ints",
    "GeNSIT.C90_list_of_strs",
    "GeNSIT.C90_nested",
    "GeNSIT.C90_list_of_tables_false",
    "GeNSIT.C90_list_of_dicts_false",
    "GeNSIT.C90_custom_unique_false",
    "GeNSIT.C90_exact_length",
    "GeNSIT.C90_table",
    "GeNSIT.C90_range_list"
   ],
   "note": "Exact acceptance for lists of integers and strings with length, uniqueness and element constraints, and for nested lists of every depth; three _false theorems show what is not checked."
  },
  {
   "property": "C91",
   "status": "partial",
   "theorems": [
    "GeNSIT.C91_unchanged",
    "GeNSIT.C91_defaults",
    "GeNSIT.C91_default_false",
    "GeNSIT.C91_missing_elements"
   ],
   "note": "C91_unchanged for every schema without customList, C91_defaults for lists; C91_default_false: scalars and dictionary values do not get their default from value()."
  },
  {
   "property": "C92",
   "status": "partial",
   "theorems": [
    "GeNSIT.C92_accept_iff",
    "GeNSIT.C92_accept_given_table_iff",
    "GeNSIT.C92_stationary",
    "GeNSIT.C92_stationary_given_table",
    "GeNSIT.C92_correlated_false"
   ],
   "note": "Acceptance rule and stationarity proved for every walk density invariant under sign changes of the coordinates (diagonal covariance) and for the ideal, deterministic partition function; for correlated walks C92_correlated_false shows the proposal to be asymmetric, so the property does not hold of the code in general."
  },
  {
   "property": "C93",
   "status": "partial",
   "theorems": [
    "GeNSIT.C93_noise",
    "GeNSIT.C93_noise_false"
   ],
   "note": "False of the code (C93_noise_false); C93_noise gives the exact random part, C69_same_dynamics the drift."
  },
  {
   "property": "C94",
   "status": "partial",
   "theorems": [
    "GeNSIT.C94_gibbs_invariant",
    "GeNSIT.C94_fibre_finite",
    "GeNSIT.C94_draw_is_a_law",
    "GeNSIT.C94_clamped_false"
   ],
   "note": "C94_gibbs_invariant for intensities whose rectangle odds ratios are within the clamp (any size, margins, fixed cells, basis); C94_clamped_false: beyond the clamp the law is not invariant."
  },
  {
   "property": "C95",
   "status": "partial",
   "theorems": [
    "GeNSIT.C95_degree_one_exact",
    "GeNSIT.C95_degree_one_partial",
    "GeNSIT.C95_degree_one_false"
   ],
   "note": "False of the code (C95_degree_one_false). C95_degree_one_exact gives the law that is invariant while entries stay at most 2; C95_degree_one_partial the property for tables of zeros and ones; larger decreasing entries raise (C10_raises_iff)."
  },
  {
   "property": "C96",
   "status": "proved",
   "theorems": [
    "GeNSIT.C96_after",
    "GeNSIT.C96_conditional_law"
   ],
   "note": "Exact law after any number of rounds and its limit."
  },
  {
   "property": "C97",
   "status": "partial",
   "theorems": [
    "GeNSIT.C97_multinomial_law",
    "GeNSIT.C97_row_multinomials_law",
    "GeNSIT.C97_poisson_law",
    "GeNSIT.C97_both_margins_false"
   ],
   "note": "Poisson, total-constrained (any fixed cells) and row-constrained (no fixed cells) laws proved; C97_both_margins_false: with both margins the intensities are ignored; column-constrained and fixed-cell product multinomials misplace counts (C13)."
  },
  {
   "property": "C98",
   "status": "proved",
   "theorems": [
    "GeNSIT.C98_flags",
    "GeNSIT.C98_shipped_described",
    "GeNSIT.C98_shipped_unsweepable",
    "GeNSIT.C98_accepted",
    "GeNSIT.C98_exact",
    "GeNSIT.C98_rejected"
   ],
   "note": "For parameter files of the shipped shape (C98 holds of the shipped files by Shipped.params_file, Shipped.schema_clean, C98_shipped_described). Value checks are a parameter (modelled in Schema). The exact characterisation is for settings without coupled sweeps; soundness for all. C98_shipped_unsweepable: theta_steps and destination_attraction_steps can never be swept."
  },
  {
   "property": "C99",
   "status": "proved",
   "theorems": [
    "GeNSIT.C99_settings",
    "GeNSIT.C99_mode"
   ],
   "note": "Frame over all positions."
  },
  {
   "property": "C100",
   "status": "partial",
   "theorems": [
    "GeNSIT.C100_checked_partial",
    "GeNSIT.C100_checked_on_partial",
    "GeNSIT.C100_default_unchecked_false"
   ],
   "note": "C100_default_unchecked_false refutes the full statement; sweeps off and sweeps with a range proved."
  },
  {
   "property": "C101",
   "status": "partial",
   "theorems": [
    "GeNSIT.C101_coupled_members",
    "GeNSIT.C101_coupled_entries",
    "GeNSIT.C101_target_required",
    "GeNSIT.C101_registered_partial",
    "GeNSIT.C101_same_name_false"
   ],
   "note": "C101_same_name_false refutes the full statement; unique names proved. Coupled groups: members, contents and the need for a target are proved (C101_coupled_members, C101_coupled_entries, C101_target_required)."
  },
  {
   "property": "C102",
   "status": "partial",
   "theorems": [
    "GeNSIT.C102_unlisted_ignored",
    "GeNSIT.C102_unknown_key_false",
    "GeNSIT.C102_list_sweep_rejected"
   ],
   "note": "Refuted: C102_unlisted_ignored (acceptance depends on the listed parameters only), C102_unknown_key_false, C102_list_sweep_rejected."
  },
  {
   "property": "C103",
   "status": "partial",
   "theorems": [
    "GeNSIT.C103_bad_value_exits_with_zero"
   ],
   "note": "Refuted: C103_bad_value_exits_with_zero shows the exit status 0 for every configuration whose only fault is a value that fails its check."
  },
  {
   "property": "C104",
   "status": "proved",
   "theorems": [
    "GeNSIT.C104_removed",
    "GeNSIT.C104_schema",
    "GeNSIT.C104_unknown_override",
    "GeNSIT.C104_through_list_false",
    "GeNSIT.C104_shipped"
   ],
   "note": "For experiment schemas of the shipped shape (C104_shipped: all 13 shipped types, any settings). C104_through_list_false: overrides through lists are not applied (none is shipped)."
  },
  {
   "property": "C105",
   "status": "proved",
   "theorems": [
    "GeNSIT.C105_accepted",
    "GeNSIT.C105_excluded_ignored",
    "GeNSIT.C105_one_experiment",
    "GeNSIT.C105_unknown_type"
   ],
   "note": "Both directions for settings without coupled sweeps outside the excluded sections."
  },
  {
   "property": "C106",
   "status": "partial",
   "theorems": [
    "GeNSIT.C106_given_option_stored",
    "GeNSIT.C106_rest_unchanged",
    "GeNSIT.C106_no_new_settings",
    "GeNSIT.C106_unasked_overwritten",
    "GeNSIT.C106_file_values_kept_false"
   ],
   "note": "C106_given_option_stored, C106_rest_unchanged and C106_no_new_settings hold for all configurations; C106_file_values_kept_false: a fixed list of settings is overwritten without being asked (C106_unasked_overwritten says to what)."
  },
  {
   "property": "C107",
   "status": "partial",
   "theorems": [
    "GeNSIT.C107_exact",
    "GeNSIT.C107_requested_partial",
    "GeNSIT.C107_nothing_requested",
    "GeNSIT.C107_untyped_fails",
    "GeNSIT.C107_same_type_false"
   ],
   "note": "Exact behaviour in C107_exact; the claim holds when the types are pairwise different (C107_requested_partial) and fails otherwise (C107_same_type_false)."
  },
  {
   "property": "C108",
   "status": "proved",
   "theorems": [
    "GeNSIT.C108_key_value",
    "GeNSIT.C108_name_only",
    "GeNSIT.C108_always_trimmed",
    "GeNSIT.C108_samples"
   ],
   "note": "For all strings; the order of the Python set of sample names is left open."
  },
  {
   "property": "C109",
   "status": "partial",
   "theorems": [
    "GeNSIT.C109_read_back",
    "GeNSIT.C109_refused",
    "GeNSIT.C109_silently_shortened_false",
    "GeNSIT.C109_group_size",
    "GeNSIT.C109_distinct_metrics_partial",
    "GeNSIT.C109_metric_entries",
    "GeNSIT.C109_repeated_metric_false"
   ],
   "note": "Round trip for one use of the option, exact refusal condition; C109_silently_shortened_false and C109_repeated_metric_false refute the rest, C109_group_size and C109_distinct_metrics_partial say what happens."
  },
  {
   "property": "C110",
   "status": "partial",
   "theorems": [
    "GeNSIT.C110_getitem",
    "GeNSIT.C110_getitem_negative",
    "GeNSIT.C110_len",
    "GeNSIT.C110_len_getitem",
    "GeNSIT.C110_setitem_succeeds",
    "GeNSIT.C110_setitem_effect",
    "GeNSIT.C110_setitem_atomic_false",
    "GeNSIT.C110_setitem_empty_false",
    "GeNSIT.C110_assign_row_false",
    "GeNSIT.C110_del_false",
    "GeNSIT.C110_delitem_names",
    "GeNSIT.C110_iteration_false",
    "GeNSIT.C110_pop_false",
    "GeNSIT.C110_strip_partial",
    "GeNSIT.C110_strip_positions",
    "GeNSIT.C110_strip_both_false"
   ],
   "note": "Indexing, length, assignment and deletion by name are exact for all collections; C110_pop_false, C110_del_false, C110_assign_row_false, C110_setitem_atomic_false, C110_setitem_empty_false, C110_iteration_false and C110_strip_both_false refute the rest of the claim."
  },
  {
   "property": "C111",
   "status": "partial",
   "theorems": [
    "GeNSIT.C111_first_load",
    "GeNSIT.C111_cached_load_partial",
    "GeNSIT.C111_settings_false",
    "GeNSIT.C111_mixed_false",
    "GeNSIT.C111_groups_kept_apart",
    "GeNSIT.C111_collected",
    "GeNSIT.C111_crash_partial",
    "GeNSIT.C111_crash_false",
    "GeNSIT.C111_torn",
    "GeNSIT.C111_force",
    "GeNSIT.C111_split",
    "GeNSIT.C111_writes_new_files",
    "GeNSIT.C111_nothing_collected_false",
    "GeNSIT.C111_resliced_partial"
   ],
   "note": "C111_first_load, C111_split, C111_writes_new_files, C111_force hold for all directories; C111_cached_load_partial gives the exact (reversed) result of a load from any cache; C111_settings_false, C111_mixed_false, C111_crash_false, C111_nothing_collected_false are the violations, C111_crash_partial and C111_torn say what is left after every crash point. Several processes using one directory at the same time are not modelled."
  },
  {
   "property": "C112",
   "status": "partial",
   "theorems": [
    "GeNSIT.C112_every_group_once_partial",
    "GeNSIT.C112_pop_false",
    "GeNSIT.C112_rows"
   ],
   "note": "C112_every_group_once_partial (pop off, the only use in the repository) and C112_rows; C112_pop_false is the violation."
  },
  {
   "property": "C113",
   "status": "partial",
   "theorems": [
    "GeNSIT.C113_content",
    "GeNSIT.C113_missing_rejected",
    "GeNSIT.C113_dims_agree",
    "GeNSIT.C113_conflict_rejected",
    "GeNSIT.C113_negative_rejected",
    "GeNSIT.C113_destination_demand_vector",
    "GeNSIT.C113_declared_dims_false"
   ],
   "note": "C113_content, C113_missing_rejected, C113_dims_agree, C113_conflict_rejected, C113_negative_rejected hold for all configurations and files; C113_declared_dims_false and C113_destination_demand_vector are the violations. Parsing of the files is not modelled."
  },
  {
   "property": "C114",
   "status": "partial",
   "theorems": [
    "GeNSIT.C114_neither_given",
    "GeNSIT.C114_equal_zones",
    "GeNSIT.C114_delta_given",
    "GeNSIT.C114_kappa_given",
    "GeNSIT.C114_both_given",
    "GeNSIT.C114_balanced_false",
    "GeNSIT.C114_precedence",
    "GeNSIT.C114_learned_absent_false"
   ],
   "note": "C114_neither_given, C114_delta_given, C114_kappa_given, C114_both_given, C114_precedence are exact; C114_balanced_false, C114_equal_zones, C114_learned_absent_false are the violations. Exact arithmetic; one time step."
  },
  {
   "property": "C115",
   "status": "partial",
   "theorems": [
    "GeNSIT.C115_mask",
    "GeNSIT.C115_default_test",
    "GeNSIT.C115_missing_file",
    "GeNSIT.C115_declared_order_false"
   ],
   "note": "C115_mask, C115_default_test, C115_missing_file for dimensions in the usual order (in particular undeclared ones); C115_declared_order_false is the violation otherwise."
  },
  {
   "property": "C116",
   "status": "partial",
   "theorems": [
    "GeNSIT.C116_margin_values_partial",
    "GeNSIT.C116_margin_file_rejected",
    "GeNSIT.C116_margin_file_false",
    "GeNSIT.C116_value_sign_false",
    "GeNSIT.C116_cells_never_used"
   ],
   "note": "C116_margin_values_partial and C116_cells_never_used say what is imported for all configurations; C116_margin_file_rejected / _false and C116_value_sign_false are the violations."
  },
  {
   "property": "C117",
   "status": "partial",
   "theorems": [
    "GeNSIT.C117_pass",
    "GeNSIT.C117_pass_numpy_only",
    "GeNSIT.C117_pass_idempotent",
    "GeNSIT.C117_roundtrip_partial",
    "GeNSIT.C117_unnamed_stays",
    "GeNSIT.C117_roundtrip_false",
    "GeNSIT.C117_features_not_moved",
    "GeNSIT.C117_origin_series_rejected"
   ],
   "note": "C117_pass, C117_pass_idempotent, C117_roundtrip_partial hold for all states; C117_unnamed_stays, C117_roundtrip_false, C117_features_not_moved, C117_origin_series_rejected are the violations."
  },
  {
   "property": "C118",
   "status": "partial",
   "theorems": [
    "GeNSIT.C118_copy",
    "GeNSIT.C118_copy_all",
    "GeNSIT.C118_empty_request_false"
   ],
   "note": "C118_copy (non-empty requests) and C118_copy_all; C118_empty_request_false is the violation."
  },
  {
   "property": "C119",
   "status": "partial",
   "theorems": [
    "GeNSIT.C119_to_xarray",
    "GeNSIT.C119_to_xarray_succeeds",
    "GeNSIT.C119_order_irrelevant",
    "GeNSIT.C119_from_xarray",
    "GeNSIT.C119_roundtrip_partial",
    "GeNSIT.C119_roundtrip_false",
    "GeNSIT.C119_default_request_false"
   ],
   "note": "C119_to_xarray, C119_to_xarray_succeeds, C119_order_irrelevant, C119_from_xarray are exact; C119_roundtrip_partial for integer entries; C119_roundtrip_false and C119_default_request_false are the violations."
  },
  {
   "property": "C120",
   "status": "partial",
   "theorems": [
    "GeNSIT.C120_shares",
    "GeNSIT.C120_shares_exist",
    "GeNSIT.C120_cost",
    "GeNSIT.C120_total_cost",
    "GeNSIT.C120_solver",
    "GeNSIT.C120_potential_minimum",
    "GeNSIT.C120_potential_stored_false",
    "GeNSIT.C120_potential_stored",
    "GeNSIT.C120_table",
    "GeNSIT.C120_uniform_rejected",
    "GeNSIT.C120_name",
    "GeNSIT.C120_name_false",
    "GeNSIT.C120_name_last_key"
   ],
   "note": "C120_shares, C120_cost, C120_total_cost, C120_solver, C120_potential_minimum, C120_table, C120_name hold for every outcome of the draws; C120_uniform_rejected, C120_potential_stored(_false), C120_name_false, C120_name_last_key are the violations."
  },
  {
   "property": "C121",
   "status": "partial",
   "theorems": [
    "GeNSIT.C121_score",
    "GeNSIT.C121_maximum",
    "GeNSIT.C121_prediction_partial",
    "GeNSIT.C121_prediction_false",
    "GeNSIT.C121_no_positive_score",
    "GeNSIT.C121_failed_point",
    "GeNSIT.C121_solver_scale_false",
    "GeNSIT.C121_swapped_names",
    "GeNSIT.C121_declared_order",
    "GeNSIT.C121_succeeds"
   ],
   "note": "C121_score, C121_maximum, C121_succeeds are for all grids and models; C121_prediction_partial requires a positive best score; C121_prediction_false, C121_no_positive_score, C121_failed_point, C121_solver_scale_false, C121_swapped_names, C121_declared_order are the violations. Exact arithmetic; optimiser and solver are arbitrary functions of the parameters."
  },
  {
   "property": "C122",
   "status": "partial",
   "theorems": [
    "GeNSIT.C122_maximum",
    "GeNSIT.C122_succeeds",
    "GeNSIT.C122_scales",
    "GeNSIT.C122_same_meaning_false"
   ],
   "note": "C122_maximum, C122_succeeds, C122_scales are exact; C122_same_meaning_false is the violation."
  },
  {
   "property": "C123",
   "status": "partial",
   "theorems": [
    "GeNSIT.C123_series",
    "GeNSIT.C123_final",
    "GeNSIT.C123_restart",
    "GeNSIT.C123_zero_absorbing",
    "GeNSIT.C123_equilibrium",
    "GeNSIT.C123_positive",
    "GeNSIT.C123_parameters",
    "GeNSIT.C123_learned_in_run",
    "GeNSIT.C123_run_learned_false"
   ],
   "note": "C123_series, C123_final, C123_restart, C123_zero_absorbing, C123_equilibrium, C123_positive, C123_parameters are for all runs; C123_learned_in_run and C123_run_learned_false are the violation. Real arithmetic; intensity an arbitrary function of the attractions."
  },
  {
   "property": "C124",
   "status": "partial",
   "theorems": [
    "GeNSIT.C124_table",
    "GeNSIT.C124_value_in_every_row_false",
    "GeNSIT.C124_extra_row",
    "GeNSIT.C124_repeat_harmless_false",
    "GeNSIT.C124_repeat_stale",
    "GeNSIT.C124_named_like_key",
    "GeNSIT.C124_index_ignored",
    "GeNSIT.C124_unswept",
    "GeNSIT.C124_unswept_arrays",
    "GeNSIT.C124_unswept_false",
    "GeNSIT.C124_raw_keywords",
    "GeNSIT.C124_first_definition"
   ],
   "note": "C124_table is exact for operations with different names that do not clash with sweep keys when a per-setting operation comes first; C124_unswept, C124_unswept_arrays, C124_raw_keywords, C124_first_definition are exact; C124_value_in_every_row_false, C124_extra_row, C124_repeat_harmless_false, C124_repeat_stale, C124_named_like_key, C124_unswept_false are the violations. Evaluation of Python expressions is an arbitrary partial function of the values found so far."
  },
  {
   "property": "C125",
   "status": "partial",
   "theorems": [
    "GeNSIT.C125_succeeds",
    "GeNSIT.C125_records",
    "GeNSIT.C125_values",
    "GeNSIT.C125_swept_key_false",
    "GeNSIT.C125_no_expressions",
    "GeNSIT.C125_collection"
   ],
   "note": "C125_succeeds, C125_records, C125_collection are exact; C125_swept_key_false and C125_no_expressions are the violations."
  },
  {
   "property": "C126",
   "status": "partial",
   "theorems": [
    "GeNSIT.C126_given",
    "GeNSIT.C126_given_path",
    "GeNSIT.C126_found",
    "GeNSIT.C126_sorted",
    "GeNSIT.C126_succeeds",
    "GeNSIT.C126_complete",
    "GeNSIT.C126_date_false",
    "GeNSIT.C126_exclude_rejected",
    "GeNSIT.C126_no_dataset",
    "GeNSIT.C126_order_irrelevant"
   ],
   "note": "C126_given, C126_found, C126_sorted, C126_succeeds, C126_complete, C126_order_irrelevant are for all directory trees; C126_date_false, C126_exclude_rejected, C126_no_dataset are the violations. Types, titles and data set names are taken to contain no regular-expression operators."
  },
  {
   "property": "C127",
   "status": "partial",
   "theorems": [
    "GeNSIT.C127_written",
    "GeNSIT.C127_ending",
    "GeNSIT.C127_dates_collide",
    "GeNSIT.C127_directories_collide",
    "GeNSIT.C127_group_collides",
    "GeNSIT.C127_kept_false"
   ],
   "note": "C127_written and C127_ending are for all requests; C127_dates_collide, C127_directories_collide, C127_group_collides, C127_kept_false are the violations."
  },
  {
   "property": "C128",
   "status": "partial",
   "theorems": [
    "GeNSIT.C128_sources",
    "GeNSIT.C128_beta",
    "GeNSIT.C128_intensity",
    "GeNSIT.C128_intensity_exit",
    "GeNSIT.C128_missing_input",
    "GeNSIT.C128_missing_false",
    "GeNSIT.C128_agree_iff",
    "GeNSIT.C128_mcmc_steps",
    "GeNSIT.C128_tables_iff",
    "GeNSIT.C128_tables_false",
    "GeNSIT.C128_tables_partial",
    "GeNSIT.C128_nn_iff",
    "GeNSIT.C128_nn_false"
   ],
   "note": "C128_sources, C128_beta, C128_intensity, C128_intensity_exit, C128_agree_iff, C128_mcmc_steps, C128_tables_iff, C128_nn_iff are exact for all arrays over the reals; C128_missing_false, C128_tables_false, C128_nn_false are the violations, C128_tables_partial the case bmax = 1."
  },
  {
   "property": "C129",
   "status": "partial",
   "theorems": [
    "GeNSIT.C129_loaded",
    "GeNSIT.C129_stored_loaded",
    "GeNSIT.C129_stored_intensity_false",
    "GeNSIT.C129_learnable_partial",
    "GeNSIT.C129_learnable_false",
    "GeNSIT.C129_sim_mcmc_lost",
    "GeNSIT.C129_log_target_empty"
   ],
   "note": "C129_loaded is exact for all requests; C129_stored_loaded needs that an experiment storing its intensity has no intensity model in the configuration (C129_stored_intensity_false otherwise); C129_learnable_partial characterises the learnable parameters that can be stored; C129_sim_mcmc_lost and C129_log_target_empty hold for all runs."
  },
  {
   "property": "C130",
   "status": "partial",
   "theorems": [
    "GeNSIT.C130_loads_partial",
    "GeNSIT.C130_loads_iff",
    "GeNSIT.C130_rows_fail",
    "GeNSIT.C130_log_target_false",
    "GeNSIT.C130_steps_false",
    "GeNSIT.C130_iteration_iff",
    "GeNSIT.C130_iteration_false",
    "GeNSIT.C130_run_partial",
    "GeNSIT.C130_loss_false",
    "GeNSIT.C130_unknown_sweep",
    "GeNSIT.C130_sweep_names_false",
    "GeNSIT.C130_dims"
   ],
   "note": "C130_loads_iff is the exact condition for loading; C130_loads_partial what is loaded when extents agree; C130_rows_fail, C130_log_target_false, C130_steps_false, C130_loss_false and C130_unknown_sweep the failures, for all runs; C130_iteration_iff says for which schedules the row number is the iteration (C130_iteration_false, C130_run_partial)."
  },
  {
   "property": "C131",
   "status": "proved",
   "theorems": [
    "GeNSIT.C131_succeeds_iff",
    "GeNSIT.C131_dims",
    "GeNSIT.C131_values",
    "GeNSIT.C131_unswept",
    "GeNSIT.C131_other_coords"
   ],
   "note": "C131_succeeds_iff, C131_dims, C131_values, C131_unswept, C131_other_coords, for samples of any number of dimensions."
  },
  {
   "property": "C132",
   "status": "partial",
   "theorems": [
    "GeNSIT.C132_found_partial",
    "GeNSIT.C132_own_word",
    "GeNSIT.C132_name_iff",
    "GeNSIT.C132_found_false",
    "GeNSIT.C132_built_partial",
    "GeNSIT.C132_available_partial",
    "GeNSIT.C132_physics_iff",
    "GeNSIT.C132_physics_false",
    "GeNSIT.C132_learning_never",
    "GeNSIT.C132_learning_loss"
   ],
   "note": "C132_found_partial and C132_name_iff characterise which mentions are found, for all strings; C132_built_partial covers the objects that can be built; C132_found_false, C132_physics_false, C132_learning_never, C132_learning_loss are the violations."
  },
  {
   "property": "C133",
   "status": "partial",
   "theorems": [
    "GeNSIT.C133_where",
    "GeNSIT.C133_single",
    "GeNSIT.C133_missing_false",
    "GeNSIT.C133_run",
    "GeNSIT.C133_conditions",
    "GeNSIT.C133_applied_false",
    "GeNSIT.C133_needs_index_setting",
    "GeNSIT.C133_order"
   ],
   "note": "C133_where, C133_single, C133_run, C133_conditions, C133_order are exact for all arrays and predicates; C133_missing_false, C133_applied_false and C133_needs_index_setting are the violations."
  },
  {
   "property": "C134",
   "status": "partial",
   "theorems": [
    "GeNSIT.C134_stored",
    "GeNSIT.C134_covariates",
    "GeNSIT.C134_runs_iff",
    "GeNSIT.C134_runs_false",
    "GeNSIT.C134_held_out",
    "GeNSIT.C134_missing_iff",
    "GeNSIT.C134_missing_false"
   ],
   "note": "C134_stored, C134_covariates, C134_held_out: what is stored at training and evaluation cells, for every learning model, and independence of the other counts. C134_runs_iff: the run succeeds iff every origin and destination of a training or evaluation cell has a row among the destination features; with more origins than destinations it fails (C134_runs_false), the origin features are never read. C134_missing_iff: cells neither trained nor evaluated hold the fill value, NaN for XGBoost but zero for forest and boosting (C134_missing_false)."
  },
  {
   "property": "C135",
   "status": "partial",
   "theorems": [
    "GeNSIT.C135_forest",
    "GeNSIT.C135_boosted",
    "GeNSIT.C135_stage_iff",
    "GeNSIT.C135_boosted_false"
   ],
   "note": "C135_forest: mean over the samples is the prediction of the forest. The samples of the boosted trees are single trees (C135_boosted), equal to the staged prediction only under C135_stage_iff; C135_boosted_false."
  },
  {
   "property": "C136",
   "status": "partial",
   "theorems": [
    "GeNSIT.C136_edge_loss",
    "GeNSIT.C136_edge_minimiser",
    "GeNSIT.C136_edge_shuffled",
    "GeNSIT.C136_edge_false",
    "GeNSIT.C136_edge_partial",
    "GeNSIT.C136_limit",
    "GeNSIT.C136_flow_minimiser",
    "GeNSIT.C136_flow_false",
    "GeNSIT.C136_held_out_false",
    "GeNSIT.C136_held_out_partial",
    "GeNSIT.C136_weights"
   ],
   "note": "The full statement is false of the code: predictions (n,1) minus targets (n,) broadcast to n by n, so the trip loss is smallest exactly at the constant mean (C136_edge_minimiser, C136_edge_loss, C136_edge_false), it ignores which count belongs to which cell (C136_edge_shuffled); the flow targets include the square root of the region's number (C136_flow_minimiser, C136_flow_false); the flows sum over held-out cells (C136_held_out_false). C136_edge_partial: exact condition for the mean squared error. C136_limit: jump at the block limit. C136_weights: how the parts are combined."
  },
  {
   "property": "C137",
   "status": "partial",
   "theorems": [
    "GeNSIT.C137_edge_iff",
    "GeNSIT.C137_edge_false",
    "GeNSIT.C137_layer",
    "GeNSIT.C137_isolated",
    "GeNSIT.C137_isolated_prediction",
    "GeNSIT.C137_runs_iff",
    "GeNSIT.C137_nonneg",
    "GeNSIT.C137_renamed",
    "GeNSIT.C137_local",
    "GeNSIT.C137_weights",
    "GeNSIT.C137_combination_false"
   ],
   "note": "C137_layer, C137_edge_iff, C137_nonneg, C137_renamed, C137_local. Missing because the code differs: adjacent regions with cost zero are not linked (C137_edge_false); regions without incoming edge have embedding zero (C137_isolated, C137_isolated_prediction); the convex combination weights are computed and not used (C137_weights, C137_combination_false); a graph without edge fails (C137_runs_iff)."
  },
  {
   "property": "C138",
   "status": "partial",
   "theorems": [
    "GeNSIT.C138_epoch",
    "GeNSIT.C138_full_batch",
    "GeNSIT.C138_negatives",
    "GeNSIT.C138_runs_iff",
    "GeNSIT.C138_negative_size",
    "GeNSIT.C138_negative_false",
    "GeNSIT.C138_negatives_false"
   ],
   "note": "C138_epoch, C138_full_batch for rate zero and positive batch size. Any other rate fails (C138_negatives, C138_runs_iff, C138_negatives_false); a negative batch size trains on nothing without error (C138_negative_size, C138_negative_false)."
  },
  {
   "property": "C139",
   "status": "partial",
   "theorems": [
    "GeNSIT.C139_minmax",
    "GeNSIT.C139_minmax_lost",
    "GeNSIT.C139_minmax_false",
    "GeNSIT.C139_standard",
    "GeNSIT.C139_standard_lost",
    "GeNSIT.C139_standard_false",
    "GeNSIT.C139_units"
   ],
   "note": "C139_minmax, C139_standard, C139_units for columns with two different values. Constant columns, and columns with a NaN, become NaN everywhere (C139_minmax_lost, C139_standard_lost, C139_minmax_false, C139_standard_false)."
  },
  {
   "property": "C140",
   "status": "partial",
   "theorems": [
    "GeNSIT.C140_isolated_sound",
    "GeNSIT.C140_coupled_sound",
    "GeNSIT.C140_isolated_found_partial",
    "GeNSIT.C140_coupled_found_partial",
    "GeNSIT.C140_target_path_partial",
    "GeNSIT.C140_names_sound",
    "GeNSIT.C140_names_complete_partial",
    "GeNSIT.C140_succeeds_iff",
    "GeNSIT.C140_same_name_false",
    "GeNSIT.C140_empty_range_false",
    "GeNSIT.C140_missing_target_false",
    "GeNSIT.C140_target_path_false",
    "GeNSIT.C140_file_target_false",
    "GeNSIT.C140_chain_duplicates_false",
    "GeNSIT.C140_list_raises_false"
   ],
   "note": "C140_isolated_sound, C140_coupled_sound, C140_names_sound: nothing else is found. C140_isolated_found_partial, C140_coupled_found_partial, C140_target_path_partial, C140_names_complete_partial: everything is found provided names are unambiguous and targets exist. C140_succeeds_iff: exactly when discovery succeeds. False in general: two sweeps of the same name (C140_same_name_false), an empty range (C140_empty_range_false), a missing target (C140_missing_target_false), a target whose name occurs elsewhere first (C140_target_path_false) or which is swept through its file (C140_file_target_false), chains (C140_chain_duplicates_false), sweeps below lists (C140_list_raises_false)."
  },
  {
   "property": "C141",
   "status": "partial",
   "theorems": [
    "GeNSIT.C141_exact",
    "GeNSIT.C141_all_records_partial",
    "GeNSIT.C141_stale_value",
    "GeNSIT.C141_stale_false",
    "GeNSIT.C141_misaligned_false",
    "GeNSIT.C141_by_experiment",
    "GeNSIT.C141_by_experiment_false",
    "GeNSIT.C141_failed_folder_false"
   ],
   "note": "C141_exact: what the figure contains, for all folders. C141_all_records_partial: the full statement when every record has the same keys and none fails. A record without a key repeats the previous record's value (C141_stale_value, C141_stale_false), keys that appear late shift the values (C141_misaligned_false), with one figure per experiment only the last record is drawn (C141_by_experiment, C141_by_experiment_false), records before a failing one of the same folder are kept and the others lost (C141_failed_folder_false)."
  },
  {
   "property": "C142",
   "status": "partial",
   "theorems": [
    "GeNSIT.C142_permutation",
    "GeNSIT.C142_above_iff",
    "GeNSIT.C142_one_variable",
    "GeNSIT.C142_direction_false",
    "GeNSIT.C142_last_variable_first",
    "GeNSIT.C142_primary_false"
   ],
   "note": "C142_permutation: layers are a permutation of 1..n. C142_above_iff: exact order. The last variable takes precedence, not the first (C142_last_variable_first, C142_primary_false), and the direction is opposite to the documented one (C142_one_variable, C142_direction_false)."
  },
  {
   "property": "C143",
   "status": "partial",
   "theorems": [
    "GeNSIT.C143_same_subplot_iff",
    "GeNSIT.C143_completes_iff",
    "GeNSIT.C143_completes_false",
    "GeNSIT.C143_missing_group",
    "GeNSIT.C143_two_variables"
   ],
   "note": "C143_same_subplot_iff. C143_completes_iff: the figure is completed iff every combination of row and column group has a record (C143_completes_false otherwise). C143_missing_group: records beyond the list of groups go to the first subplot. C143_two_variables: groups of two variables."
  },
  {
   "property": "C144",
   "status": "partial",
   "theorems": [
    "GeNSIT.C144_given",
    "GeNSIT.C144_contains_partial",
    "GeNSIT.C144_one_sided_iff",
    "GeNSIT.C144_one_sided_false",
    "GeNSIT.C144_nan_false",
    "GeNSIT.C144_which_limits"
   ],
   "note": "C144_given, C144_contains_partial (each record has a number). One limit given alone is overridden by data beyond it (C144_one_sided_iff, C144_one_sided_false); a record of NaNs loses the limits (C144_nan_false). C144_which_limits: which of several given limits applies."
  },
  {
   "property": "C145",
   "status": "partial",
   "theorems": [
    "GeNSIT.C145_major_only",
    "GeNSIT.C145_labelled_iff",
    "GeNSIT.C145_distinct_partial",
    "GeNSIT.C145_distinct_false",
    "GeNSIT.C145_minor_within_iff",
    "GeNSIT.C145_major_entry_only",
    "GeNSIT.C145_exits_iff",
    "GeNSIT.C145_default_exits",
    "GeNSIT.C145_none_entry_false"
   ],
   "note": "C145_major_only: the full statement without minor entries. C145_labelled_iff, C145_distinct_partial, C145_minor_within_iff: exact conditions on the steps with minor entries; C145_distinct_false otherwise. C145_exits_iff, C145_default_exits: locations for which the program exits. C145_major_entry_only, C145_none_entry_false: records without position."
  },
  {
   "property": "C146",
   "status": "partial",
   "theorems": [
    "GeNSIT.C146_learned",
    "GeNSIT.C146_configured",
    "GeNSIT.C146_delta_kappa",
    "GeNSIT.C146_trial",
    "GeNSIT.C146_builds_iff",
    "GeNSIT.C146_settings_only_false",
    "GeNSIT.C146_step_ignored",
    "GeNSIT.C146_training_step",
    "GeNSIT.C146_training_step_trial",
    "GeNSIT.C146_step_false"
   ],
   "note": "C146_configured, C146_delta_kappa, C146_learned, C146_trial, C146_builds_iff. False for the step size: harris_wilson_model.dt is never read, the default is used (C146_step_ignored, C146_step_false) and also written over the configured value before the training loops read it (C146_training_step); in a trial the loops use the configured step, not the suggested one (C146_training_step_trial). Without given parameters nothing is read from the settings, building raises (C146_settings_only_false)."
  },
  {
   "property": "C147",
   "status": "partial",
   "theorems": [
    "GeNSIT.C147_recorded_partial",
    "GeNSIT.C147_others_unchanged_partial",
    "GeNSIT.C147_trial_false",
    "GeNSIT.C147_other_setting_false",
    "GeNSIT.C147_list_false"
   ],
   "note": "C147_recorded_partial, C147_others_unchanged_partial when the first occurrence of each name is a plain value reached through dictionaries. False when the name occurs elsewhere first (C147_other_setting_false), below a list (C147_list_false: raises) and for suggested values (C147_trial_false)."
  },
  {
   "property": "C148",
   "status": "partial",
   "theorems": [
    "GeNSIT.C148_different_times",
    "GeNSIT.C148_different_types",
    "GeNSIT.C148_identifies",
    "GeNSIT.C148_noise",
    "GeNSIT.C148_kept",
    "GeNSIT.C148_kept_false"
   ],
   "note": "C148_different_times, C148_different_types, C148_identifies, C148_noise, C148_kept (for every history of runs started at different seconds). False for two runs of the same type, title and noise level within one second: the second deletes the data of the first (C148_kept_false)."
  },
  {
   "property": "C149",
   "status": "partial",
   "theorems": [
    "GeNSIT.C149_time_partial",
    "GeNSIT.C149_order_partial",
    "GeNSIT.C149_time_false",
    "GeNSIT.C149_unreadable",
    "GeNSIT.C149_unreadable_made"
   ],
   "note": "C149_time_partial, C149_order_partial: unless three numbers separated by underscores precede the time. Otherwise another time may be read (C149_time_false) or the whole search raises (C149_unreadable, C149_unreadable_made)."
  },
  {
   "property": "C150",
   "status": "partial",
   "theorems": [
    "GeNSIT.C150_one_tailed",
    "GeNSIT.C150_agree_partial",
    "GeNSIT.C150_constant",
    "GeNSIT.C150_agree_false",
    "GeNSIT.C150_degrees",
    "GeNSIT.C150_swap",
    "GeNSIT.C150_direction",
    "GeNSIT.C150_unit",
    "GeNSIT.C150_refused"
   ],
   "note": "C150_one_tailed, C150_degrees, C150_swap, C150_direction, C150_unit, C150_refused; C150_agree_partial: both functions agree unless both samples are constant. With two constant samples of different means they disagree (C150_constant, C150_agree_false). Exact arithmetic; scipy's ttest_ind by its formula, the t distribution function is a parameter."
  },
  {
   "property": "C151",
   "status": "partial",
   "theorems": [
    "GeNSIT.C151_reachable_finite",
    "GeNSIT.C151_converges_partial",
    "GeNSIT.C151_connected_partial",
    "GeNSIT.C151_sample_mean",
    "GeNSIT.C151_two_by_two",
    "GeNSIT.C151_false"
   ],
   "note": "C151_converges_partial (geometric convergence to the target conditioned on the tables the generated basis connects with the start), C151_connected_partial, C151_sample_mean, C151_reachable_finite; unconditional for 2x2 tables (C151_two_by_two). False in general because the generated basis need not connect the fibre (C151_false). Exact draws are assumed."
  },
  {
   "property": "C152",
   "status": "partial",
   "theorems": [
    "GeNSIT.C152_step_invariant",
    "GeNSIT.C152_unbiased_partial",
    "GeNSIT.C152_start_iff",
    "GeNSIT.C152_unit_rate_partial",
    "GeNSIT.C152_two_temperatures_partial",
    "GeNSIT.C152_unbiased_false"
   ],
   "note": "C152_step_invariant holds without restriction; C152_unbiased_partial: unbiased when the particles start from the prior. The code passes the scale where torch.distributions.Gamma expects the rate, so they start from the prior iff 2*kappa/sigma^2 = 1 (C152_start_iff); then the code's estimate is unbiased (C152_unit_rate_partial), and otherwise it is biased in general (C152_unbiased_false). With two temperatures and a shift-invariant difference of potentials (epsilon = 1) it stays unbiased (C152_two_temperatures_partial)."
  },
  {
   "property": "C153",
   "status": "partial",
   "theorems": [
    "GeNSIT.C153_starts",
    "GeNSIT.C153_value",
    "GeNSIT.C153_exact_quadratic_partial",
    "GeNSIT.C153_log_density_partial",
    "GeNSIT.C153_compare_partial",
    "GeNSIT.C153_exact_false"
   ],
   "note": "C153_starts and C153_value hold for everything; exactness (C153_exact_quadratic_partial, C153_log_density_partial, C153_compare_partial) holds for quadratic potentials only, and is false for the model's own potential (C153_exact_false)."
  },
  {
   "property": "C154",
   "status": "partial",
   "theorems": [
    "GeNSIT.C154_count",
    "GeNSIT.C154_reload",
    "GeNSIT.C154_fresh_partial",
    "GeNSIT.C154_own_seed_false",
    "GeNSIT.C154_power_false",
    "GeNSIT.C154_repeat_false",
    "GeNSIT.C154_user_file_false",
    "GeNSIT.C154_in_range",
    "GeNSIT.C154_use",
    "GeNSIT.C154_independent_partial",
    "GeNSIT.C154_independent_false"
   ],
   "note": "C154_count, C154_reload, C154_in_range, C154_use hold for everything; own seed (C154_own_seed_false), own power (C154_power_false), repeatability with a single stopping time (C154_repeat_false), use of a longer user file (C154_user_file_false) and one stopping time per estimate (C154_independent_false) fail; C154_fresh_partial and C154_independent_partial are what holds."
  },
  {
   "property": "C155",
   "status": "partial",
   "theorems": [
    "GeNSIT.C155_value",
    "GeNSIT.C155_workers_false",
    "GeNSIT.C155_truncated_mean",
    "GeNSIT.C155_limit_partial",
    "GeNSIT.C155_mean_infinite_false",
    "GeNSIT.C155_order_partial",
    "GeNSIT.C155_order_false"
   ],
   "note": "C155_value is the exact value. The announced scheme has mean Y_n when stopped at level n (C155_truncated_mean) and the limit of Y_n when Y has bounded variation (C155_limit_partial), but the value the code returns has an infinite mean for every bounded sequence of log weights and every power >= 1 (C155_mean_infinite_false). With two or more workers every estimate raises AttributeError (C155_workers_false); the parallel collector would make the value depend on the completion order from three runs on (C155_order_false), not with two (C155_order_partial)."
  },
  {
   "property": "C156",
   "status": "partial",
   "theorems": [
    "GeNSIT.C156_stationary",
    "GeNSIT.C156_stationary_given_table",
    "GeNSIT.C156_signed_average",
    "GeNSIT.C156_unsigned_false"
   ],
   "note": "C156_stationary, C156_stationary_given_table and C156_signed_average hold for every law of the estimate, provided every call of z_inverse draws independently and has mean proportional to 1/z. In the code neither holds: parameter steps of one iteration share their stopping time (C154_independent_false) and the mean is infinite (C155_mean_infinite_false). Ignoring the sign is wrong (C156_unsigned_false)."
  },
  {
   "property": "C157",
   "status": "partial",
   "theorems": [
    "GeNSIT.C157_uninformative_partial",
    "GeNSIT.C157_given_table_ratio",
    "GeNSIT.C157_given_table_uninformative_partial",
    "GeNSIT.C157_annealer_step_partial",
    "GeNSIT.C157_false",
    "GeNSIT.C157_given_table_false"
   ],
   "note": "C157_false and C157_given_table_false: with a flat potential and one observation, one leapfrog step moves mass away from the observation. C157_uninformative_partial: invariant when the gradient of the observations vanishes (infinite noise variance). C157_annealer_step_partial: the loop of the annealer, which re-evaluates everything along the trajectory, leaves this posterior invariant when run at temperature one."
  },
  {
   "property": "C158",
   "status": "partial",
   "theorems": [
    "GeNSIT.C158_one_iteration",
    "GeNSIT.C158_invariant_partial",
    "GeNSIT.C158_total_partial",
    "GeNSIT.C158_rows_partial",
    "GeNSIT.C158_scaling_false"
   ],
   "note": "C158_invariant_partial for bmax = 1, no attraction steps, a 1/z that is a function of the parameters and table steps that leave the conditional law invariant; C158_total_partial and C158_rows_partial discharge the last hypothesis for direct sampling of totally and row constrained tables. C158_one_iteration is exact for any bmax; C158_scaling_false: violated for bmax = 2 whatever the number of parameter steps. Attraction steps are C157 (violated), Poisson and Fisher likelihoods C80 (violated)."
  },
  {
   "property": "C159",
   "status": "partial",
   "theorems": [
    "GeNSIT.C159_two_parameters",
    "GeNSIT.C159_sampler_iff",
    "GeNSIT.C159_fixed_wins",
    "GeNSIT.C159_alpha_beta_partial",
    "GeNSIT.C159_false",
    "GeNSIT.C159_joint_start",
    "GeNSIT.C159_joint_start_false",
    "GeNSIT.C159_joint_names",
    "GeNSIT.C159_grid_iff",
    "GeNSIT.C159_grid_swapped",
    "GeNSIT.C159_training",
    "GeNSIT.C159_written"
   ],
   "note": "C159_sampler_iff and C159_grid_iff: exactly when the samplers and the grid search use the right names; C159_alpha_beta_partial the usual order; C159_false and C159_joint_start_false witnesses (beta listed first; a third name). C159_two_parameters: the samplers run for exactly two distinct names other than sigma with bmax fixed. C159_training, C159_written: training and written data are right for every order."
  },
  {
   "property": "C160",
   "status": "partial",
   "theorems": [
    "GeNSIT.C160_mean",
    "GeNSIT.C160_cost_mean",
    "GeNSIT.C160_raises_iff",
    "GeNSIT.C160_accumulate",
    "GeNSIT.C160_order",
    "GeNSIT.C160_table_distance",
    "GeNSIT.C160_intensity_rows",
    "GeNSIT.C160_intensity_exchanged",
    "GeNSIT.C160_intensity_false",
    "GeNSIT.C160_variance",
    "GeNSIT.C160_variance_tensor"
   ],
   "note": "C160_mean, C160_cost_mean: each loss is the mean over samples; C160_raises_iff what is refused; C160_accumulate, C160_order, C160_variance. C160_intensity_rows: what the intensity losses of the joint experiment compute, C160_intensity_exchanged: they do not depend on which origin has which flows, C160_intensity_false."
  },
  {
   "property": "C161",
   "status": "partial",
   "theorems": [
    "GeNSIT.C161_gradient",
    "GeNSIT.C161_table_distance_ignored",
    "GeNSIT.C161_no_learning",
    "GeNSIT.C161_single_partial",
    "GeNSIT.C161_compared",
    "GeNSIT.C161_last_table",
    "GeNSIT.C161_false"
   ],
   "note": "C161_gradient: the optimiser gets the derivative of the sum of all losses with the drawn tables held constant. C161_table_distance_ignored, C161_no_learning: table distance losses change nothing after any number of epochs; C161_false: although their expected value does depend on the weights. C161_single_partial: every other loss reaches the optimiser."
  },
  {
   "property": "C162",
   "status": "partial",
   "theorems": [
    "GeNSIT.C162_total",
    "GeNSIT.C162_rows",
    "GeNSIT.C162_poisson_unbounded",
    "GeNSIT.C162_poisson_false",
    "GeNSIT.C162_fisher_false"
   ],
   "note": "C162_total, C162_rows: lower bound attained exactly at the shares of the table (Gibbs' inequality with its equality case). C162_poisson_unbounded / C162_poisson_false: without constraints the sum of log intensities stands where the sum of intensities belongs, the loss has no lower bound. C162_fisher_false: odds-ratio form with row and column sums."
  },
  {
   "property": "C163",
   "status": "partial",
   "theorems": [
    "GeNSIT.C163_isolated",
    "GeNSIT.C163_one_worker_partial",
    "GeNSIT.C163_one_worker_value_partial",
    "GeNSIT.C163_several_workers",
    "GeNSIT.C163_several_workers_false"
   ],
   "note": "C163_isolated, C163_one_worker_partial, C163_one_worker_value_partial: right for one worker after any history. C163_several_workers: exact behaviour of trials that start together under every interleaving of epochs (all train, evaluate and report for the trial started last); C163_several_workers_false the negation."
  },
  {
   "property": "C164",
   "status": "partial",
   "theorems": [
    "GeNSIT.C164_margins",
    "GeNSIT.C164_refused_iff",
    "GeNSIT.C164_full",
    "GeNSIT.C164_partial_forgotten",
    "GeNSIT.C164_partial_residual",
    "GeNSIT.C164_false"
   ],
   "note": "C164_margins, C164_full: margins given are kept and the missing ones completed consistently, a full table determines all. C164_refused_iff: exact condition of refusal. C164_partial_forgotten, C164_partial_residual, C164_false: a table with an unknown cell is overwritten with -1."
  },
  {
   "property": "C165",
   "status": "partial",
   "theorems": [
    "GeNSIT.C165_table_iff",
    "GeNSIT.C165_table_partial",
    "GeNSIT.C165_wrong_total",
    "GeNSIT.C165_margins",
    "GeNSIT.C165_only_asked",
    "GeNSIT.C165_from_table",
    "GeNSIT.C165_false"
   ],
   "note": "C165_table_iff, C165_margins, C165_only_asked, C165_from_table: exact effect of each update; C165_table_partial: right when the fixed cells contribute nothing. C165_wrong_total, C165_false: otherwise the residual total is too large by the sum of the fixed cells."
  },
  {
   "property": "C166",
   "status": "partial",
   "theorems": [
    "GeNSIT.C166_given_total_partial",
    "GeNSIT.C166_sampled_iff",
    "GeNSIT.C166_initialised",
    "GeNSIT.C166_false"
   ],
   "note": "C166_given_total_partial: consistent when the total is not sampled; C166_sampled_iff: with a sampled total consistent exactly when it equals the stored one; C166_initialised: the one-by-one initialisation is consistent. C166_false: the negation."
  },
  {
   "property": "C167",
   "status": "partial",
   "theorems": [
    "GeNSIT.C167_admissible",
    "GeNSIT.C167_unconstrained",
    "GeNSIT.C167_solver_ignored",
    "GeNSIT.C167_refused",
    "GeNSIT.C167_choices_false",
    "GeNSIT.C167_default_starts"
   ],
   "note": "C167_admissible: a returned table meets all constraints and is non-negative, for every solver name and all random outcomes. C167_unconstrained, C167_default_starts: when a start succeeds for certain. C167_solver_ignored, C167_refused, C167_choices_false: the names that cannot start a chain."
  },
  {
   "property": "C168",
   "status": "partial",
   "theorems": [
    "GeNSIT.C168_accepted_iff",
    "GeNSIT.C168_outside_fixed",
    "GeNSIT.C168_false"
   ],
   "note": "C168_accepted_iff: exact test; C168_outside_fixed: cells outside the smaller table are never moved. C168_false: a 2x2 basis is accepted for a 3x3 table."
  },
  {
   "property": "C169",
   "status": "partial",
   "theorems": [
    "GeNSIT.C169_resume_raises",
    "GeNSIT.C169_lookup_fails",
    "GeNSIT.C169_unreadable_restarts",
    "GeNSIT.C169_not_asked",
    "GeNSIT.C169_resumed_iff",
    "GeNSIT.C169_check_iff",
    "GeNSIT.C169_check_false",
    "GeNSIT.C169_false"
   ],
   "note": "C169_resume_raises, C169_lookup_fails, C169_unreadable_restarts, C169_not_asked, C169_resumed_iff: exact behaviour. C169_check_iff, C169_check_false: the completeness test looks at the log only. C169_false: the negation for every readable sweep with a configuration. No positive part holds beyond C169_not_asked."
  },
  {
   "property": "C170",
   "status": "partial",
   "theorems": [
    "GeNSIT.C170_relative_exact",
    "GeNSIT.C170_relative_iff",
    "GeNSIT.C170_zero_line",
    "GeNSIT.C170_overstated",
    "GeNSIT.C170_false",
    "GeNSIT.C170_margin",
    "GeNSIT.C170_margin_undefined",
    "GeNSIT.C170_margin_seeds",
    "GeNSIT.C170_sparsity",
    "GeNSIT.C170_sparsity_range",
    "GeNSIT.C170_sparsity_false"
   ],
   "note": "C170_relative_exact, C170_relative_iff, C170_zero_line, C170_overstated: exact behaviour of the relative residual and when it is right. C170_margin, C170_margin_undefined, C170_margin_seeds: the margin error is right. C170_sparsity, C170_sparsity_range: sparsity is the mean share of zeros. C170_false, C170_sparsity_false: the negations."
  },
  {
   "property": "C171",
   "status": "partial",
   "theorems": [
    "GeNSIT.C171_accepts_iff",
    "GeNSIT.C171_completed",
    "GeNSIT.C171_complete_iff_partial",
    "GeNSIT.C171_late_start",
    "GeNSIT.C171_false"
   ],
   "note": "C171_accepts_iff: exact test; C171_completed: all rows of a completed run are valid, for every schedule. C171_complete_iff_partial: the full statement when every sample is written. C171_late_start, C171_false: otherwise the first step aborts."
  },
  {
   "property": "C172",
   "status": "partial",
   "theorems": [
    "GeNSIT.C172_seeded",
    "GeNSIT.C172_sweep_sequential",
    "GeNSIT.C172_sweep_concurrent",
    "GeNSIT.C172_together_partial",
    "GeNSIT.C172_single",
    "GeNSIT.C172_together_exact",
    "GeNSIT.C172_together_false",
    "GeNSIT.C172_same_seed_false",
    "GeNSIT.C172_unseeded_copies",
    "GeNSIT.C172_unseeded_false",
    "GeNSIT.C172_stopping_reused"
   ],
   "note": "C172_seeded, C172_single, C172_sweep_sequential, C172_sweep_concurrent: a seeded experiment on its own, and every member of a seeded sweep, uses the random numbers of its configuration. C172_together_exact: exact states when several are configured; C172_together_partial: when they are right. C172_together_false, C172_same_seed_false, C172_unseeded_false: the negations. C172_unseeded_copies, C172_stopping_reused: exact behaviour of forked unseeded workers and of stopping times."
  },
  {
   "property": "C173",
   "status": "partial",
   "theorems": [
    "GeNSIT.C173_completes_iff",
    "GeNSIT.C173_reported",
    "GeNSIT.C173_thinned_aborts",
    "GeNSIT.C173_not_exported",
    "GeNSIT.C173_sim_theta_false"
   ],
   "note": "C173_completes_iff: exact condition for completing; C173_reported: what is reported then, for every history; C173_thinned_aborts: a late or thinned schedule aborts; C173_not_exported, C173_sim_theta_false: acceptances never reported."
  },
  {
   "property": "C174",
   "status": "partial",
   "theorems": [
    "GeNSIT.C174_exact",
    "GeNSIT.C174_on_schedule_iff",
    "GeNSIT.C174_false"
   ],
   "note": "C174_exact: rows stored for every schedule; C174_on_schedule_iff: exactly when this is the schedule; C174_false: the negation."
  },
  {
   "property": "C175",
   "status": "partial",
   "theorems": [
    "GeNSIT.C175_exact",
    "GeNSIT.C175_single",
    "GeNSIT.C175_failed_single",
    "GeNSIT.C175_sweep_exact",
    "GeNSIT.C175_sweep_false",
    "GeNSIT.C175_failed_member",
    "GeNSIT.C175_killed",
    "GeNSIT.C175_killed_nothing",
    "GeNSIT.C175_killed_false",
    "GeNSIT.C175_forked",
    "GeNSIT.C175_levels"
   ],
   "note": "C175_exact: exact contents of every file for every history; C175_single, C175_failed_single: a single run's log is complete. C175_sweep_exact, C175_failed_member, C175_forked, C175_killed, C175_killed_nothing, C175_levels: exact behaviour of sweeps, workers and killed processes. C175_sweep_false, C175_killed_false: the negations."
  },
  {
   "property": "C176",
   "status": "partial",
   "theorems": [
    "GeNSIT.C176_result_partial",
    "GeNSIT.C176_completes_iff",
    "GeNSIT.C176_coupled_raises",
    "GeNSIT.C176_overridden",
    "GeNSIT.C176_false",
    "GeNSIT.C176_conflict_false",
    "GeNSIT.C176_islice"
   ],
   "note": "C176_completes_iff: exactly when it completes; C176_result_partial: the full statement about the result when it does. C176_coupled_raises, C176_overridden: exact behaviour otherwise; C176_islice: slices. C176_false, C176_conflict_false: the negations."
  },
  {
   "property": "C177",
   "status": "partial",
   "theorems": [
    "GeNSIT.C177_single",
    "GeNSIT.C177_second",
    "GeNSIT.C177_three_raise",
    "GeNSIT.C177_false",
    "GeNSIT.C177_label_sweep",
    "GeNSIT.C177_label_other"
   ],
   "note": "C177_single: one group; C177_second: exact behaviour of a second group; C177_label_sweep, C177_label_other: labels. C177_false: the negation."
  },
  {
   "property": "C178",
   "status": "partial",
   "theorems": [
    "GeNSIT.C178_coordinates",
    "GeNSIT.C178_minor_only",
    "GeNSIT.C178_third_dropped",
    "GeNSIT.C178_third_false",
    "GeNSIT.C178_split",
    "GeNSIT.C178_btt",
    "GeNSIT.C178_dict",
    "GeNSIT.C178_margins_values",
    "GeNSIT.C178_margins_swallow",
    "GeNSIT.C178_margins_text",
    "GeNSIT.C178_margins_false",
    "GeNSIT.C178_exclusive"
   ],
   "note": "C178_coordinates, C178_minor_only, C178_split, C178_btt, C178_dict, C178_exclusive: the full statement for each kind of option. C178_third_dropped, C178_margins_values, C178_margins_swallow, C178_margins_text: exact behaviour otherwise. C178_third_false, C178_margins_false: the negations."
  },
  {
   "property": "C179",
   "status": "partial",
   "theorems": [
    "GeNSIT.C179_value",
    "GeNSIT.C179_transpose",
    "GeNSIT.C179_zero_iff",
    "GeNSIT.C179_separates",
    "GeNSIT.C179_symmetric",
    "GeNSIT.C179_symmetric_false",
    "GeNSIT.C179_both_raises",
    "GeNSIT.C179_both_false"
   ],
   "note": "C179_value, C179_transpose, C179_zero_iff, C179_separates: the full statement apart from symmetry; C179_symmetric: symmetry for equal column totals. C179_symmetric_false, C179_both_raises, C179_both_false: the negations."
  },
  {
   "property": "C180",
   "status": "partial",
   "theorems": [
    "GeNSIT.C180_denominator",
    "GeNSIT.C180_absolute",
    "GeNSIT.C180_exact",
    "GeNSIT.C180_own_value",
    "GeNSIT.C180_zero_row",
    "GeNSIT.C180_false"
   ],
   "note": "C180_absolute: absolute errors; C180_denominator, C180_exact, C180_own_value, C180_zero_row: exact behaviour of the relative error, and when it is right. C180_false: the negation. relative_l_0 and markov_basis_distance raise on every input (wrong keyword arguments) and are not modelled."
  },
  {
   "property": "C181",
   "status": "partial",
   "theorems": [
    "GeNSIT.C181_counts",
    "GeNSIT.C181_first_guess",
    "GeNSIT.C181_le_gall",
    "GeNSIT.C181_false"
   ],
   "note": "C181_counts: nonnegative and right total for every draw; C181_first_guess: a mode if no correction is needed; C181_le_gall: the cited algorithm is right. C181_false: the negation for the code."
  },
  {
   "property": "C182",
   "status": "partial",
   "theorems": [
    "GeNSIT.C182_likelihood",
    "GeNSIT.C182_gradient",
    "GeNSIT.C182_argument_ignored",
    "GeNSIT.C182_same_false",
    "GeNSIT.C182_loss",
    "GeNSIT.C182_scale",
    "GeNSIT.C182_degenerate"
   ],
   "note": "C182_likelihood, C182_gradient, C182_loss, C182_scale, C182_degenerate: the full statement apart from the agreement. C182_argument_ignored: exact behaviour; C182_same_false: the negation."
  },
  {
   "property": "C183",
   "status": "partial",
   "theorems": [
    "GeNSIT.C183_exists",
    "GeNSIT.C183_infinite",
    "GeNSIT.C183_iff",
    "GeNSIT.C183_false",
    "GeNSIT.C183_prior",
    "GeNSIT.C183_production"
   ],
   "note": "C183_exists, C183_infinite, C183_iff: exactly when the constant exists (totally constrained); C183_prior: the annealer's first potential; C183_production: the production constrained potential as coded. C183_false: the negation for delta = 0."
  },
  {
   "property": "C184",
   "status": "partial",
   "theorems": [
    "GeNSIT.C184_slices",
    "GeNSIT.C184_kept",
    "GeNSIT.C184_replaced",
    "GeNSIT.C184_by_experiment",
    "GeNSIT.C184_shared_directory",
    "GeNSIT.C184_false",
    "GeNSIT.C184_formats",
    "GeNSIT.C184_csv_ungrouped"
   ],
   "note": "C184_slices, C184_by_experiment, C184_kept: the statement for slices, outputs and different paths. C184_replaced, C184_shared_directory, C184_formats, C184_csv_ungrouped: exact behaviour otherwise. C184_false: the negation."
  },
  {
   "property": "C185",
   "status": "partial",
   "theorems": [
    "GeNSIT.C185_complete",
    "GeNSIT.C185_marker_size",
    "GeNSIT.C185_absent",
    "GeNSIT.C185_harmless",
    "GeNSIT.C185_colour",
    "GeNSIT.C185_false",
    "GeNSIT.C185_first_only",
    "GeNSIT.C185_directories"
   ],
   "note": "C185_complete: the statement when every feature is stored. C185_absent, C185_colour, C185_harmless, C185_marker_size, C185_first_only, C185_directories: exact behaviour otherwise. C185_false: the negation for a figure made with the command's defaults."
  },
  {
   "property": "C186",
   "status": "partial",
   "theorems": [
    "GeNSIT.C186_rows",
    "GeNSIT.C186_labels",
    "GeNSIT.C186_scales",
    "GeNSIT.C186_y_scale",
    "GeNSIT.C186_x_scale",
    "GeNSIT.C186_scale_false",
    "GeNSIT.C186_label_false",
    "GeNSIT.C186_ticks",
    "GeNSIT.C186_x_ticks",
    "GeNSIT.C186_tick_false"
   ],
   "note": "C186_rows, C186_y_scale, C186_x_ticks: the statement for row groups, the y scale and the x ticks. C186_labels, C186_scales, C186_x_scale, C186_ticks: exact behaviour. C186_label_false, C186_scale_false, C186_tick_false: the negations."
  },
  {
   "property": "C187",
   "status": "partial",
   "theorems": [
    "GeNSIT.C187_columns",
    "GeNSIT.C187_legend",
    "GeNSIT.C187_last_panel",
    "GeNSIT.C187_asked_iff",
    "GeNSIT.C187_place_false",
    "GeNSIT.C187_lines",
    "GeNSIT.C187_line_false"
   ],
   "note": "C187_legend, C187_columns: the entries of the legend. C187_last_panel, C187_asked_iff, C187_lines: exact behaviour of place and lines. C187_place_false, C187_line_false: the negations."
  },
  {
   "property": "C188",
   "status": "partial",
   "theorems": [
    "GeNSIT.C188_cholesky",
    "GeNSIT.C188_unique",
    "GeNSIT.C188_exists",
    "GeNSIT.C188_minimum",
    "GeNSIT.C188_hessian",
    "GeNSIT.C188_positive",
    "GeNSIT.C188_saddle",
    "GeNSIT.C188_false"
   ],
   "note": "C188_exists (all alpha), C188_unique, C188_minimum, C188_positive, C188_saddle: the statement for alpha at most one. C188_hessian: the second derivatives. C188_cholesky: positive definite matrices are those with a factor. C188_false: the negation for alpha = 2."
  },
  {
   "property": "C189",
   "status": "partial",
   "theorems": [
    "GeNSIT.C189_run",
    "GeNSIT.C189_sweep",
    "GeNSIT.C189_sweep_run",
    "GeNSIT.C189_premises",
    "GeNSIT.C189_missing_false",
    "GeNSIT.C189_missing",
    "GeNSIT.C189_twice_false",
    "GeNSIT.C189_twice_raises"
   ],
   "note": "C189_run, C189_sweep, C189_sweep_run: the statement where the switch is given, in the experiment only. C189_missing(_false): not given, every sweep raises (KeyError). C189_twice_false, C189_twice_raises: given twice with different values."
  },
  {
   "property": "C190",
   "status": "partial",
   "theorems": [
    "GeNSIT.C190_ids",
    "GeNSIT.C190_sweep_ids",
    "GeNSIT.C190_labels",
    "GeNSIT.C190_scientific",
    "GeNSIT.C190_scientific_shared",
    "GeNSIT.C190_scientific_false",
    "GeNSIT.C190_false"
   ],
   "note": "C190_ids (with brackets, nested lists of plain values), C190_sweep_ids (discharges the printing premise of C37), C190_labels (flat lists): the statement for plain values without scientific notation. C190_scientific: what is left of a number in scientific notation; C190_scientific_shared: among eleven numbers of one decade two share a label; C190_scientific_false, C190_false: the negations."
  },
  {
   "property": "C191",
   "status": "partial",
   "theorems": [
    "GeNSIT.C191_unique",
    "GeNSIT.C191_total",
    "GeNSIT.C191_exists",
    "GeNSIT.C191_minimum",
    "GeNSIT.C191_coded",
    "GeNSIT.C191_demand",
    "GeNSIT.C191_single_origin_false",
    "GeNSIT.C191_false",
    "GeNSIT.C191_coded_false"
   ],
   "note": "C191_unique (alpha at most one, delta positive or alpha below one), C191_exists (delta positive, any alpha: the minimum of the Harris-Wilson potential), C191_minimum, C191_total (sum and bounds), C191_demand (the demand of a step is the column sum when there are two origins or one destination). Negations: C191_false (alpha = 2: three equilibria), C191_coded and C191_coded_false (the coded potential is stationary at origin demand plus delta, not at rest), C191_single_origin_false (one origin: the step raises)."
  },
  {
   "property": "C192",
   "status": "partial",
   "theorems": [
    "GeNSIT.C192_production",
    "GeNSIT.C192_total",
    "GeNSIT.C192_false"
   ],
   "note": "C192_production, C192_total: for alpha at most one, delta positive and all starts in a box of positive numbers there is a bound on the step size below which the run converges. C192_false: step size 5/3 alternates between two values for ever."
  },
  {
   "property": "C193",
   "status": "partial",
   "theorems": [
    "GeNSIT.C193_numbers",
    "GeNSIT.C193_text",
    "GeNSIT.C193_text_iff",
    "GeNSIT.C193_false",
    "GeNSIT.C193_titles_false",
    "GeNSIT.C193_sigma_iff",
    "GeNSIT.C193_sigma_false",
    "GeNSIT.C193_group_iff",
    "GeNSIT.C193_missing",
    "GeNSIT.C193_label_iff",
    "GeNSIT.C193_label_number_false",
    "GeNSIT.C193_label_text",
    "GeNSIT.C193_label_sigma_iff"
   ],
   "note": "C193_numbers, C193_group_iff (several variables with numbers), C193_text and C193_text_iff (a text is shown as its listed expression, else as the empty text), C193_sigma_iff (the noise regime), C193_missing, C193_label_iff (just when a label exists), C193_label_text, C193_label_sigma_iff (three decimals). Negations: C193_false (unlisted texts), C193_titles_false, C193_sigma_false, C193_label_number_false."
  },
  {
   "property": "C194",
   "status": "partial",
   "theorems": [
    "GeNSIT.C194_table_iff",
    "GeNSIT.C194_line_style_false",
    "GeNSIT.C194_regime",
    "GeNSIT.C194_regime_iff",
    "GeNSIT.C194_title",
    "GeNSIT.C194_titles_apart",
    "GeNSIT.C194_title_false",
    "GeNSIT.C194_object_false",
    "GeNSIT.C194_literal",
    "GeNSIT.C194_sizes",
    "GeNSIT.C194_sizes_text",
    "GeNSIT.C194_annotate",
    "GeNSIT.C194_nothing"
   ],
   "note": "C194_regime and C194_regime_iff (markers and hatches by sigma), C194_title and C194_titles_apart (colours by title), C194_sizes, C194_literal, C194_table_iff (just which keys do not raise), C194_sizes_text and C194_annotate (text-valued size and annotation keys), C194_nothing (an absent key). Negations: C194_line_style_false, C194_title_false, C194_object_false (a key that eval takes for an object, as it does 'type')."
  },
  {
   "property": "C195",
   "status": "partial",
   "theorems": [
    "GeNSIT.C195_rows_iff",
    "GeNSIT.C195_settings",
    "GeNSIT.C195_sigma_false"
   ],
   "note": "C195_rows_iff (ids of two settings differ just when the settings differ, counting for sigma only the noise regime), C195_settings (pairwise different settings meet the hypothesis of C124_table). Negation: C195_sigma_false (one row, holding the value of the second)."
  },
  {
   "property": "C196",
   "status": "proved",
   "theorems": [
    "GeNSIT.C196_exact",
    "GeNSIT.C196_converges",
    "GeNSIT.C196_converges_given_table",
    "GeNSIT.C196_forgets",
    "GeNSIT.C196_limit",
    "GeNSIT.C196_normal_walk",
    "GeNSIT.C196_still"
   ],
   "note": "C196_converges and C196_converges_given_table (distance to the posterior mean at most (1 - 4 c exp(-2B))^n), C196_forgets (two runs, any walk with density at least c), C196_limit, C196_normal_walk (the program's normal steps, explicit c), C196_exact (totally constrained potential with exact normalising constant: the bound exists, uniformly in the parameters), C196_still (step size 0 never moves). Exact real arithmetic; z is a function of the parameters (not the random estimate)."
  },
  {
   "property": "C197",
   "status": "proved",
   "theorems": [
    "GeNSIT.C197_mean_square",
    "GeNSIT.C197_misses",
    "GeNSIT.C197_consistent",
    "GeNSIT.C197_burnin",
    "GeNSIT.C197_mean_square_given_table",
    "GeNSIT.C197_exact"
   ],
   "note": "C197_mean_square and C197_mean_square_given_table (explicit constant), C197_misses (Chebyshev), C197_consistent (limit), C197_exact (totally constrained potential with exact normalising constant and the program's normal walk: one constant for all functions, starts and N), C197_burnin (the same after any number of discarded iterations). No thinning; exact real arithmetic; z is a function of the parameters (not the random estimate)."
  },
  {
   "property": "C198",
   "status": "partial",
   "theorems": [
    "GeNSIT.C198_mean_square_partial",
    "GeNSIT.C198_burnin_partial",
    "GeNSIT.C198_misses_partial",
    "GeNSIT.C198_consistent_partial",
    "GeNSIT.C198_two_by_two",
    "GeNSIT.C198_false"
   ],
   "note": "C198_mean_square_partial (D/K from every reachable table), C198_burnin_partial, C198_misses_partial, C198_consistent_partial: estimates of the target law on the tables that the generated basis connects with the start. C198_two_by_two: the full statement for 2x2 tables without fixed cells. C198_false: in general the basis does not connect all tables, so the running frequency of a possible table can be 0 for ever."
  },
  {
   "property": "C199",
   "status": "partial",
   "theorems": [
    "GeNSIT.C199_forgets_partial",
    "GeNSIT.C199_converges_partial",
    "GeNSIT.C199_total_partial",
    "GeNSIT.C199_rows_partial",
    "GeNSIT.C199_false"
   ],
   "note": "With scaling factor one: C199_forgets_partial and C199_converges_partial (any direct draw that leaves the law of the table given the parameters invariant), C199_total_partial (tables with known total), C199_rows_partial (known row sums). For another scaling factor the claim is false (C199_false, for every number of parameter steps: the table is drawn at the unscaled parameters, so the law never approaches the joint posterior)."
  },
  {
   "property": "C200",
   "status": "partial",
   "theorems": [
    "GeNSIT.C200_mean_square_partial",
    "GeNSIT.C200_misses_partial",
    "GeNSIT.C200_consistent_partial",
    "GeNSIT.C200_burnin_partial",
    "GeNSIT.C200_thinning_partial",
    "GeNSIT.C200_total_partial",
    "GeNSIT.C200_rows_partial"
   ],
   "note": "With scaling factor one: C200_mean_square_partial, C200_misses_partial, C200_consistent_partial, C200_burnin_partial (after any number of discarded iterations), C200_thinning_partial (keeping every k-th sample) (any direct draw that leaves the law of the table given the parameters invariant), C200_total_partial (tables with known total), C200_rows_partial (known row sums). For another scaling factor the law of the samples does not approach the joint posterior (C199_false) and the posterior is not even invariant (C158_scaling_false)."
  }
 ]
}