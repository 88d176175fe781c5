NOTES = {
'C01': ('proved', 'Rows and columns case; any fixed cells, any integer multiple.'),
'C02': ('proved', 'For every outcome of the random partner choice.'),
'C03': ('proved', 'Completeness, uniqueness and the length formula.'),
'C04': ('proved', 'Connectivity of the whole fibre with fixed cells, rows and columns case.'),
'C05': ('partial', 'False as stated (C05_not_connected: 2x3 witness, generator keeps one random partner per cell). Proved: the 2x2 case, and connectivity of the integer lattice when entries may go negative.'),
'C06': ('proved', 'Every move, step and uniform draw; negative proposals are rejected. The step may raise instead (see C10).'),
'C07': ('proved', 'Support value v keeps margins, fixed cells, and non-negativity iff v is in the support. The exception fallback 0 can go negative (C07_fallback_can_go_negative).'),
'C08': ('proved', 'Induction over reachable tables, all implemented proposals.'),
'C09': ('proved', 'Both signs of rectangle moves.'),
'C10': ('partial', 'False as stated: C10_ratio_wrong and C10_raises_iff. Proved for entries in {0,1}.'),
'C11': ('proved', 'Returned table is admissible; the first admissible output is returned.'),
'C12': ('proved', ''),
'C13': ('partial', 'False for columns and with fixed cells (negations proved). Proved for rows without fixed cells.'),
'C14': ('proved', 'Every permutation of 1..N, no fixed cells.'),
'C15': ('proved', 'Termination bound and result for every random sequence, no fixed cells; returned tables are admissible also with fixed cells.'),
'C16': ('proved', 'Whenever propagation returns (it raises when a constrained line has exactly one free cell, see C17).'),
'C17': ('partial', 'False as stated: propagation raises exactly when it would infer a cell (C17_inference_raises). Proved: when it returns, no constrained line has a single unknown; and a single unknown would be forced.'),
'C18': ('proved', 'Any number of dimensions.'),
'C19': ('proved', 'Any number of dimensions.'),
'C20': ('proved', 'Two-way tables.'),
'C21': ('proved', 'Two-way axes.'),
'C22': ('partial', 'False for Poisson/multinomial/product-multinomial (comparison instead of assignment, C22_never_replaced). Proved for Fisher.'),
'C23': ('proved', ''),
'C26': ('proved', ''),
'C24': ('proved', 'Every label order, every fixed-cell set. This generator exists but is not called by generate (MarkovBasis.py:661).'),
'C25': ('proved', ''),
'C63': ('proved', 'Every graph and bound.'),
'C64': ('partial', 'Proved when the table has at most five rows or at most five columns; false in general because max_length=10 (C64_long_cycles_missed).'),
'C27': ('proved', 'update_markov_basis: any list, any fixed cells. import_markov_basis applies it only when some cell is fixed (C27_unfiltered_without_fixed_cells).'),
'C28': ('proved', 'Any dictionary, any non-empty path, any value except the marker string not-found; also without overwrite when the containers exist.'),
'C29': ('partial', 'False with overwrite (C29_overwrite_loses_siblings). Proved without overwrite, and with overwrite for paths starting with another key.'),
'C30': ('partial', 'False: C30_true_without_storing (a missing intermediate key). Proved with overwrite or when the container is a dictionary.'),
'C31': ('partial', 'False when a key repeats along a path (C31_repeated_key_wrong_path), and results accumulate across calls that use the default argument. Proved exactly without repeats; in general one result per occurrence up to the order of its components.'),
'C32': ('proved', 'Every tree.'),
'C33': ('partial', 'False for list elements and numeric-string keys (negations proved). Proved for dictionary entries; missing paths.'),
'C34': ('proved', 'Values, other paths, key order at every level, and when it returns.'),
'C43': ('partial', 'deep_get yields outermost occurrences only; deep_delete skips lists; deep_update skips lists in lists (negations proved). Proved otherwise.'),
'C65': ('proved', 'Also: repeated keys collide, the last wins (C65_flatten_collision).'),
'C66': ('proved', 'Trees of dictionaries without repeated keys along a path. path_modify reports success without storing (C66_modify_true_without_storing).'),
'C35': ('proved', 'Values that are not tuples, coupled rows that print differently; general facts for arbitrary rows; tuple values misalign (C35_tuple_values_misaligned).'),
'C36': ('proved', 'Unrelated paths through dictionaries. The base settings are copied before being written (deepcopy), so the model returns a new tree.'),
'C37': ('partial', 'False in general: order dependent when names share the part before the first underscore (C37_order_dependent), sigma recorded only by regime, dataset not recorded. Proved otherwise, components without slash.'),
'C38': ('partial', 'False for parameters whose paths end in the same component, e.g. file (C38_files_not_checked). Proved when the last components differ.'),
'C39': ('partial', 'Partition proved for all inputs; grouping respected for isolated parameters and target names; grouping by another coupled parameter is ignored (C39_coupled_group_by_ignored).'),
'C40': ('partial', 'Filters, keeping what is equal or within ten percent; hence not only equal values (C40_keeps_different_values).'),
'C62': ('partial', 'Classification of sigma_to_noise_regime proved for all rationals; the physical model classifies differently (C62_two_classifications_disagree).'),
'C41': ('partial', 'inclusive checks and missing values proved; exclusive checks with an upper limit refuse everything (proved as C41_exclusive_false)'),
'C42': ('partial', 'proved for bounds and steps up to 2^24; above that single precision changes the bounds (C42_large_false); descending ranges stop two short (C42_descending_false)'),
'C44': ('proved', 'text, dictionary and pair round trips; shape of what is read; sparse dictionaries'),
'C45': ('proved', 'chunks and submitted jobs'),
'C46': ('partial', 'bound for all executions; conservation and progress without raising submissions; the leak and the zero bound are proved as negations'),
'C47': ('proved', 'for every completed execution of the executor model; behaviour of failing tasks stated too'),
'C48': ('partial', 'first free slot proved; distinctness proved for serialised claims; race and overflow proved as negations'),
'C49': ('proved', 'slices naming one dimension of the sample; stacked multi-dimension slices are not modelled'),
'C50': ('partial', 'proved for the parameter, table, attraction, acceptance and timing datasets; the loss datasets and unlisted ones never receive rows (C50_loss_false, C50_unlisted_false)'),
'C51': ('partial', 'holds iff write_every divides a positive write_start; otherwise the first row is mislabelled (C51_time_false)'),
'C52': ('proved', 'every crash point included; C52_truncated_stays shows that a truncated file is then kept for good'),
'C53': ('proved', 'partition, agreement inside groups, and maximal merging'),
'C54': ('proved', 'rational store_progress'),
'C55': ('proved', 'Any number of iterations and sweeps; zero demand and zero total included (torch.log 0 = -inf is modelled). Exact reals.'),
'C56': ('proved', 'Any number of iterations and sweeps. Exact reals.'),
'C67': ('partial', 'Proved for the totally-constrained model. For the production-constrained model the tiled cost matrix is reshaped wrongly: exact row read proved (C67_production_reads_row), false with several sweeps (C67_production_batch_false), proved for one sweep or one origin.'),
'C68': ('partial', 'Proved with at least two origins; false for one origin because of torch.squeeze (C68_single_origin_false).'),
'C69': ('partial', 'Proved for the totally-constrained model. For the production-constrained model the potential normalises over the wrong axis: it raises on rectangular tables and its gradient ignores costs (C69_production_raises, C69_production_gradient, C69_production_false).'),
'C70': ('proved', 'Exact reals.'),
'C57': ('proved', 'One step, outside-rejection, flag, and any history of either sampler; exact arithmetic.'),
'C58': ('partial', 'Annealing leapfrog: reversible, bijective, volume preserving, Metropolis probability and detailed balance w.r.t. exp(-H) proved. The attraction updates freeze the data gradient at the previous sample, so their trajectory is not reversible (C58_attraction_frozen gives the exact trajectory, C58_attraction_false refutes).'),
'C71': ('proved', 'Algebraic symmetry of the reflected step; the normal law is symmetric in each absolute coordinate. Diagonal proposal covariance is assumed (the code draws one independent normal per coordinate).'),
'C72': ('proved', 'Both samplers.'),
'C73': ('partial', 'Holds after theta steps and, when the scaling factor is 1, after table steps; false after accepted attraction steps (C73_attraction_false) and with a scaling factor other than 1 (C73_scaling_false).'),
'C74': ('partial', 'False: the data likelihood is evaluated at the previous sample on both sides and cancels (C74_ratio_ignores_data is the exact rule, C74_false the refutation).'),
'C75': ('proved', 'Exact arithmetic; the linear temperature schedule used by the code.'),
'C76': ('partial', 'False: autograd gives the derivative and the code negates it (C76_gradient_negated exact, C76_gradient_false refutation).'),
'C59': ('proved', 'Exact arithmetic; also the exception case and the coverage flag. Strengthened: minimal among all intervals, not only among windows.'),
'C60': ('proved', 'Metric axioms for all integer tables; for counts with equal totals it is the length of the shortest sequence of unit transfers.'),
'C77': ('proved', 'A draw of exactly 0 makes the loop run forever (C77_zero_diverges).'),
'C78': ('partial', 'False: torch.range includes its end point, so a spurious last term (N+2 - Y_N)(N+1)^k is added. C78_value gives the exact value, C78_false the refutation.'),
'C79': ('proved', 'All four distributions, all dimensions; exact reals.'),
'C80': ('partial', 'Proved for multinomial and product multinomial; false for Poisson (C80_poisson_false) and for Fisher (C80_fisher_false).'),
'C81': ('partial', 'Poisson, multinomial and Fisher losses agree; the product multinomial loss normalises columns (C81_product_loss_transposed, C81_product_loss_false); the normalised multinomial swaps its arguments (C81_normalised_false).'),
'C82': ('proved', 'With mixed signs the variance can be negative (C82_var_negative).'),
'C83': ('proved', ''),
'C84': ('partial', 'Exact value is sqrt(M) times the specified one (C84_inflated); right for one sample, false otherwise (C84_false).'),
'C61': ('partial', 'Proved: the exact list built and exactly when the call raises; full property for dictionaries of distinct in-range layer numbers; built layers chain. False (proved): negative layer numbers wrap instead of raising; dictionary activation entries always raise.'),
'C85': ('partial', 'False as stated, with witness: getattr on a dict never finds the entry, so built-in defaults are always used and the configuration is overwritten with them (proved). Trial suggestions are honoured (proved).'),
'C86': ('partial', 'False for batch size > 1, with witness: accumulated losses are reset after every element. Exact list of gradient steps proved for all inputs; full property for batch size 1; mean over identical samples.'),
'C87': ('proved', 'Exact acceptance sets for integers, floats and strings; the allow-nan variant has its own exact set (C87_allow_nan) and C87_allow_nan_false shows that it does not imply the declared type.'),
'C88': ('partial', 'False of the code (C88_bool_false); the exact behaviour - everything is accepted - is C88_bool_unchecked.'),
'C89': ('partial', 'Exact acceptance for files and directories; the extension clause is false for schemas like the shipped one (C89_extension_false) and true only for schemas having both keys (C89_extension_partial).'),
'C90': ('partial', 'Exact acceptance for lists of integers and strings with length, uniqueness and element constraints, and for nested lists of every depth; three _false theorems show what is not checked.'),
'C91': ('partial', 'C91_unchanged for every schema without customList, C91_defaults for lists; C91_default_false: scalars and dictionary values do not get their default from value().'),
'C92': ('partial', 'Acceptance rule and stationarity proved for every walk density invariant under sign changes of the coordinates (diagonal covariance) and for the ideal, deterministic partition function; for correlated walks C92_correlated_false shows the proposal to be asymmetric, so the property does not hold of the code in general.'),
'C93': ('partial', 'False of the code (C93_noise_false); C93_noise gives the exact random part, C69_same_dynamics the drift.'),
'C94': ('partial', 'C94_gibbs_invariant for intensities whose rectangle odds ratios are within the clamp (any size, margins, fixed cells, basis); C94_clamped_false: beyond the clamp the law is not invariant.'),
'C95': ('partial', 'False of the code (C95_degree_one_false). C95_degree_one_exact gives the law that is invariant while entries stay at most 2; C95_degree_one_partial the property for tables of zeros and ones; larger decreasing entries raise (C10_raises_iff).'),
'C96': ('proved', 'Exact law after any number of rounds and its limit.'),
'C97': ('partial', 'Poisson, total-constrained (any fixed cells) and row-constrained (no fixed cells) laws proved; C97_both_margins_false: with both margins the intensities are ignored; column-constrained and fixed-cell product multinomials misplace counts (C13).'),
'C98': ('proved', 'For parameter files of the shipped shape (C98 holds of the shipped files by Shipped.params_file, Shipped.schema_clean, C98_shipped_described). Value checks are a parameter (modelled in Schema). The exact characterisation is for settings without coupled sweeps; soundness for all. C98_shipped_unsweepable: theta_steps and destination_attraction_steps can never be swept.'),
'C99': ('proved', 'Frame over all positions.'),
'C100': ('partial', 'C100_default_unchecked_false refutes the full statement; sweeps off and sweeps with a range proved.'),
'C101': ('partial', 'C101_same_name_false refutes the full statement; unique names proved. Coupled groups: members, contents and the need for a target are proved (C101_coupled_members, C101_coupled_entries, C101_target_required).'),
'C102': ('partial', 'Refuted: C102_unlisted_ignored (acceptance depends on the listed parameters only), C102_unknown_key_false, C102_list_sweep_rejected.'),
'C103': ('partial', 'Refuted: C103_bad_value_exits_with_zero shows the exit status 0 for every configuration whose only fault is a value that fails its check.'),
'C104': ('proved', 'For experiment schemas of the shipped shape (C104_shipped: all 13 shipped types, any settings). C104_through_list_false: overrides through lists are not applied (none is shipped).'),
'C105': ('proved', 'Both directions for settings without coupled sweeps outside the excluded sections.'),
'C106': ('partial', 'C106_given_option_stored, C106_rest_unchanged and C106_no_new_settings hold for all configurations; C106_file_values_kept_false: a fixed list of settings is overwritten without being asked (C106_unasked_overwritten says to what).'),
'C107': ('partial', 'Exact behaviour in C107_exact; the claim holds when the types are pairwise different (C107_requested_partial) and fails otherwise (C107_same_type_false).'),
'C108': ('proved', 'For all strings; the order of the Python set of sample names is left open.'),
'C109': ('partial', 'Round trip for one use of the option, exact refusal condition; C109_silently_shortened_false and C109_repeated_metric_false refute the rest, C109_group_size and C109_distinct_metrics_partial say what happens.'),
'C110': ('partial', 'Indexing, length, assignment and deletion by name are exact for all collections; C110_pop_false, C110_del_false, C110_assign_row_false, C110_setitem_atomic_false, C110_setitem_empty_false, C110_iteration_false and C110_strip_both_false refute the rest of the claim.'),
'C111': ('partial', 'C111_first_load, C111_split, C111_writes_new_files, C111_force hold for all directories; C111_cached_load_partial gives the exact (reversed) result of a load from any cache; C111_settings_false, C111_mixed_false, C111_crash_false, C111_nothing_collected_false are the violations, C111_crash_partial and C111_torn say what is left after every crash point. Several processes using one directory at the same time are not modelled.'),
'C112': ('partial', 'C112_every_group_once_partial (pop off, the only use in the repository) and C112_rows; C112_pop_false is the violation.'),
'C113': ('partial', 'C113_content, C113_missing_rejected, C113_dims_agree, C113_conflict_rejected, C113_negative_rejected hold for all configurations and files; C113_declared_dims_false and C113_destination_demand_vector are the violations. Parsing of the files is not modelled.'),
'C114': ('partial', 'C114_neither_given, C114_delta_given, C114_kappa_given, C114_both_given, C114_precedence are exact; C114_balanced_false, C114_equal_zones, C114_learned_absent_false are the violations. Exact arithmetic; one time step.'),
'C115': ('partial', 'C115_mask, C115_default_test, C115_missing_file for dimensions in the usual order (in particular undeclared ones); C115_declared_order_false is the violation otherwise.'),
'C116': ('partial', 'C116_margin_values_partial and C116_cells_never_used say what is imported for all configurations; C116_margin_file_rejected / _false and C116_value_sign_false are the violations.'),
'C117': ('partial', 'C117_pass, C117_pass_idempotent, C117_roundtrip_partial hold for all states; C117_unnamed_stays, C117_roundtrip_false, C117_features_not_moved, C117_origin_series_rejected are the violations.'),
'C118': ('partial', 'C118_copy (non-empty requests) and C118_copy_all; C118_empty_request_false is the violation.'),
'C119': ('partial', 'C119_to_xarray, C119_to_xarray_succeeds, C119_order_irrelevant, C119_from_xarray are exact; C119_roundtrip_partial for integer entries; C119_roundtrip_false and C119_default_request_false are the violations.'),
'C120': ('partial', 'C120_shares, C120_cost, C120_total_cost, C120_solver, C120_potential_minimum, C120_table, C120_name hold for every outcome of the draws; C120_uniform_rejected, C120_potential_stored(_false), C120_name_false, C120_name_last_key are the violations.'),
'C121': ('partial', 'C121_score, C121_maximum, C121_succeeds are for all grids and models; C121_prediction_partial requires a positive best score; C121_prediction_false, C121_no_positive_score, C121_failed_point, C121_solver_scale_false, C121_swapped_names, C121_declared_order are the violations. Exact arithmetic; optimiser and solver are arbitrary functions of the parameters.'),
'C122': ('partial', 'C122_maximum, C122_succeeds, C122_scales are exact; C122_same_meaning_false is the violation.'),
'C123': ('partial', 'C123_series, C123_final, C123_restart, C123_zero_absorbing, C123_equilibrium, C123_positive, C123_parameters are for all runs; C123_learned_in_run and C123_run_learned_false are the violation. Real arithmetic; intensity an arbitrary function of the attractions.'),
'C124': ('partial', 'C124_table is exact for operations with different names that do not clash with sweep keys when a per-setting operation comes first; C124_unswept, C124_unswept_arrays, C124_raw_keywords, C124_first_definition are exact; C124_value_in_every_row_false, C124_extra_row, C124_repeat_harmless_false, C124_repeat_stale, C124_named_like_key, C124_unswept_false are the violations. Evaluation of Python expressions is an arbitrary partial function of the values found so far.'),
'C125': ('partial', 'C125_succeeds, C125_records, C125_collection are exact; C125_swept_key_false and C125_no_expressions are the violations.'),
'C126': ('partial', 'C126_given, C126_found, C126_sorted, C126_succeeds, C126_complete, C126_order_irrelevant are for all directory trees; C126_date_false, C126_exclude_rejected, C126_no_dataset are the violations. Types, titles and data set names are taken to contain no regular-expression operators.'),
'C127': ('partial', 'C127_written and C127_ending are for all requests; C127_dates_collide, C127_directories_collide, C127_group_collides, C127_kept_false are the violations.'),
'C128': ('partial', 'C128_sources, C128_beta, C128_intensity, C128_intensity_exit, C128_agree_iff, C128_mcmc_steps, C128_tables_iff, C128_nn_iff are exact for all arrays over the reals; C128_missing_false, C128_tables_false, C128_nn_false are the violations, C128_tables_partial the case bmax = 1.'),
'C129': ('partial', 'C129_loaded is exact for all requests; C129_stored_loaded needs that an experiment storing its intensity has no intensity model in the configuration (C129_stored_intensity_false otherwise); C129_learnable_partial characterises the learnable parameters that can be stored; C129_sim_mcmc_lost and C129_log_target_empty hold for all runs.'),
'C130': ('partial', 'C130_loads_iff is the exact condition for loading; C130_loads_partial what is loaded when extents agree; C130_rows_fail, C130_log_target_false, C130_steps_false, C130_loss_false and C130_unknown_sweep the failures, for all runs; C130_iteration_iff says for which schedules the row number is the iteration (C130_iteration_false, C130_run_partial).'),
'C131': ('proved', 'C131_succeeds_iff, C131_dims, C131_values, C131_unswept, C131_other_coords, for samples of any number of dimensions.'),
'C132': ('partial', 'C132_found_partial and C132_name_iff characterise which mentions are found, for all strings; C132_built_partial covers the objects that can be built; C132_found_false, C132_physics_false, C132_learning_never, C132_learning_loss are the violations.'),
'C133': ('partial', 'C133_where, C133_single, C133_run, C133_conditions, C133_order are exact for all arrays and predicates; C133_missing_false, C133_applied_false and C133_needs_index_setting are the violations.'),
'C134': ('partial', 'C134_stored, C134_covariates, C134_held_out: what is stored at training and evaluation cells, for every learning model, and independence of the other counts. C134_runs_iff: the run succeeds iff every origin and destination of a training or evaluation cell has a row among the destination features; with more origins than destinations it fails (C134_runs_false), the origin features are never read. C134_missing_iff: cells neither trained nor evaluated hold the fill value, NaN for XGBoost but zero for forest and boosting (C134_missing_false).'),
'C135': ('partial', 'C135_forest: mean over the samples is the prediction of the forest. The samples of the boosted trees are single trees (C135_boosted), equal to the staged prediction only under C135_stage_iff; C135_boosted_false.'),
'C136': ('partial', "The full statement is false of the code: predictions (n,1) minus targets (n,) broadcast to n by n, so the trip loss is smallest exactly at the constant mean (C136_edge_minimiser, C136_edge_loss, C136_edge_false), it ignores which count belongs to which cell (C136_edge_shuffled); the flow targets include the square root of the region's number (C136_flow_minimiser, C136_flow_false); the flows sum over held-out cells (C136_held_out_false). C136_edge_partial: exact condition for the mean squared error. C136_limit: jump at the block limit. C136_weights: how the parts are combined."),
'C137': ('partial', 'C137_layer, C137_edge_iff, C137_nonneg, C137_renamed, C137_local. Missing because the code differs: adjacent regions with cost zero are not linked (C137_edge_false); regions without incoming edge have embedding zero (C137_isolated, C137_isolated_prediction); the convex combination weights are computed and not used (C137_weights, C137_combination_false); a graph without edge fails (C137_runs_iff).'),
'C138': ('partial', 'C138_epoch, C138_full_batch for rate zero and positive batch size. Any other rate fails (C138_negatives, C138_runs_iff, C138_negatives_false); a negative batch size trains on nothing without error (C138_negative_size, C138_negative_false).'),
'C139': ('partial', 'C139_minmax, C139_standard, C139_units for columns with two different values. Constant columns, and columns with a NaN, become NaN everywhere (C139_minmax_lost, C139_standard_lost, C139_minmax_false, C139_standard_false).'),
'C140': ('partial', 'C140_isolated_sound, C140_coupled_sound, C140_names_sound: nothing else is found. C140_isolated_found_partial, C140_coupled_found_partial, C140_target_path_partial, C140_names_complete_partial: everything is found provided names are unambiguous and targets exist. C140_succeeds_iff: exactly when discovery succeeds. False in general: two sweeps of the same name (C140_same_name_false), an empty range (C140_empty_range_false), a missing target (C140_missing_target_false), a target whose name occurs elsewhere first (C140_target_path_false) or which is swept through its file (C140_file_target_false), chains (C140_chain_duplicates_false), sweeps below lists (C140_list_raises_false).'),
'C141': ('partial', "C141_exact: what the figure contains, for all folders. C141_all_records_partial: the full statement when every record has the same keys and none fails. A record without a key repeats the previous record's value (C141_stale_value, C141_stale_false), keys that appear late shift the values (C141_misaligned_false), with one figure per experiment only the last record is drawn (C141_by_experiment, C141_by_experiment_false), records before a failing one of the same folder are kept and the others lost (C141_failed_folder_false)."),
'C142': ('partial', 'C142_permutation: layers are a permutation of 1..n. C142_above_iff: exact order. The last variable takes precedence, not the first (C142_last_variable_first, C142_primary_false), and the direction is opposite to the documented one (C142_one_variable, C142_direction_false).'),
'C143': ('partial', 'C143_same_subplot_iff. C143_completes_iff: the figure is completed iff every combination of row and column group has a record (C143_completes_false otherwise). C143_missing_group: records beyond the list of groups go to the first subplot. C143_two_variables: groups of two variables.'),
'C144': ('partial', 'C144_given, C144_contains_partial (each record has a number). One limit given alone is overridden by data beyond it (C144_one_sided_iff, C144_one_sided_false); a record of NaNs loses the limits (C144_nan_false). C144_which_limits: which of several given limits applies.'),
'C145': ('partial', 'C145_major_only: the full statement without minor entries. C145_labelled_iff, C145_distinct_partial, C145_minor_within_iff: exact conditions on the steps with minor entries; C145_distinct_false otherwise. C145_exits_iff, C145_default_exits: locations for which the program exits. C145_major_entry_only, C145_none_entry_false: records without position.'),
'C146': ('partial', 'C146_configured, C146_delta_kappa, C146_learned, C146_trial, C146_builds_iff. False for the step size: harris_wilson_model.dt is never read, the default is used (C146_step_ignored, C146_step_false) and also written over the configured value before the training loops read it (C146_training_step); in a trial the loops use the configured step, not the suggested one (C146_training_step_trial). Without given parameters nothing is read from the settings, building raises (C146_settings_only_false).'),
'C147': ('partial', 'C147_recorded_partial, C147_others_unchanged_partial when the first occurrence of each name is a plain value reached through dictionaries. False when the name occurs elsewhere first (C147_other_setting_false), below a list (C147_list_false: raises) and for suggested values (C147_trial_false).'),
'C148': ('partial', 'C148_different_times, C148_different_types, C148_identifies, C148_noise, C148_kept (for every history of runs started at different seconds). False for two runs of the same type, title and noise level within one second: the second deletes the data of the first (C148_kept_false).'),
'C149': ('partial', 'C149_time_partial, C149_order_partial: unless three numbers separated by underscores precede the time. Otherwise another time may be read (C149_time_false) or the whole search raises (C149_unreadable, C149_unreadable_made).'),
'C150': ('partial', "C150_one_tailed, C150_degrees, C150_swap, C150_direction, C150_unit, C150_refused; C150_agree_partial: both functions agree unless both samples are constant. With two constant samples of different means they disagree (C150_constant, C150_agree_false). Exact arithmetic; scipy's ttest_ind by its formula, the t distribution function is a parameter."),
'C151': ('partial', 'C151_converges_partial (geometric convergence to the target conditioned on the tables the generated basis connects with the start), C151_connected_partial, C151_sample_mean, C151_reachable_finite; unconditional for 2x2 tables (C151_two_by_two). False in general because the generated basis need not connect the fibre (C151_false). Exact draws are assumed.'),
'C152': ('partial', "C152_step_invariant holds without restriction; C152_unbiased_partial: unbiased when the particles start from the prior. The code passes the scale where torch.distributions.Gamma expects the rate, so they start from the prior iff 2*kappa/sigma^2 = 1 (C152_start_iff); then the code's estimate is unbiased (C152_unit_rate_partial), and otherwise it is biased in general (C152_unbiased_false). With two temperatures and a shift-invariant difference of potentials (epsilon = 1) it stays unbiased (C152_two_temperatures_partial)."),
'C153': ('partial', "C153_starts and C153_value hold for everything; exactness (C153_exact_quadratic_partial, C153_log_density_partial, C153_compare_partial) holds for quadratic potentials only, and is false for the model's own potential (C153_exact_false)."),
'C154': ('partial', 'C154_count, C154_reload, C154_in_range, C154_use hold for everything; own seed (C154_own_seed_false), own power (C154_power_false), repeatability with a single stopping time (C154_repeat_false), use of a longer user file (C154_user_file_false) and one stopping time per estimate (C154_independent_false) fail; C154_fresh_partial and C154_independent_partial are what holds.'),
'C155': ('partial', 'C155_value is the exact value. The announced scheme has mean Y_n when stopped at level n (C155_truncated_mean) and the limit of Y_n when Y has bounded variation (C155_limit_partial), but the value the code returns has an infinite mean for every bounded sequence of log weights and every power >= 1 (C155_mean_infinite_false). With two or more workers every estimate raises AttributeError (C155_workers_false); the parallel collector would make the value depend on the completion order from three runs on (C155_order_false), not with two (C155_order_partial).'),
'C156': ('partial', 'C156_stationary, C156_stationary_given_table and C156_signed_average hold for every law of the estimate, provided every call of z_inverse draws independently and has mean proportional to 1/z. In the code neither holds: parameter steps of one iteration share their stopping time (C154_independent_false) and the mean is infinite (C155_mean_infinite_false). Ignoring the sign is wrong (C156_unsigned_false).'),
'C157': ('partial', 'C157_false and C157_given_table_false: with a flat potential and one observation, one leapfrog step moves mass away from the observation. C157_uninformative_partial: invariant when the gradient of the observations vanishes (infinite noise variance). C157_annealer_step_partial: the loop of the annealer, which re-evaluates everything along the trajectory, leaves this posterior invariant when run at temperature one.'),
'C158': ('partial', 'C158_invariant_partial for bmax = 1, no attraction steps, a 1/z that is a function of the parameters and table steps that leave the conditional law invariant; C158_total_partial and C158_rows_partial discharge the last hypothesis for direct sampling of totally and row constrained tables. C158_one_iteration is exact for any bmax; C158_scaling_false: violated for bmax = 2 whatever the number of parameter steps. Attraction steps are C157 (violated), Poisson and Fisher likelihoods C80 (violated).'),
'C159': ('partial', 'C159_sampler_iff and C159_grid_iff: exactly when the samplers and the grid search use the right names; C159_alpha_beta_partial the usual order; C159_false and C159_joint_start_false witnesses (beta listed first; a third name). C159_two_parameters: the samplers run for exactly two distinct names other than sigma with bmax fixed. C159_training, C159_written: training and written data are right for every order.'),
'C160': ('partial', 'C160_mean, C160_cost_mean: each loss is the mean over samples; C160_raises_iff what is refused; C160_accumulate, C160_order, C160_variance. C160_intensity_rows: what the intensity losses of the joint experiment compute, C160_intensity_exchanged: they do not depend on which origin has which flows, C160_intensity_false.'),
'C161': ('partial', 'C161_gradient: the optimiser gets the derivative of the sum of all losses with the drawn tables held constant. C161_table_distance_ignored, C161_no_learning: table distance losses change nothing after any number of epochs; C161_false: although their expected value does depend on the weights. C161_single_partial: every other loss reaches the optimiser.'),
'C162': ('partial', "C162_total, C162_rows: lower bound attained exactly at the shares of the table (Gibbs' inequality with its equality case). C162_poisson_unbounded / C162_poisson_false: without constraints the sum of log intensities stands where the sum of intensities belongs, the loss has no lower bound. C162_fisher_false: odds-ratio form with row and column sums."),
'C163': ('partial', 'C163_isolated, C163_one_worker_partial, C163_one_worker_value_partial: right for one worker after any history. C163_several_workers: exact behaviour of trials that start together under every interleaving of epochs (all train, evaluate and report for the trial started last); C163_several_workers_false the negation.'),
'C164': ('partial', 'C164_margins, C164_full: margins given are kept and the missing ones completed consistently, a full table determines all. C164_refused_iff: exact condition of refusal. C164_partial_forgotten, C164_partial_residual, C164_false: a table with an unknown cell is overwritten with -1.'),
'C165': ('partial', 'C165_table_iff, C165_margins, C165_only_asked, C165_from_table: exact effect of each update; C165_table_partial: right when the fixed cells contribute nothing. C165_wrong_total, C165_false: otherwise the residual total is too large by the sum of the fixed cells.'),
'C166': ('partial', 'C166_given_total_partial: consistent when the total is not sampled; C166_sampled_iff: with a sampled total consistent exactly when it equals the stored one; C166_initialised: the one-by-one initialisation is consistent. C166_false: the negation.'),
'C167': ('partial', 'C167_admissible: a returned table meets all constraints and is non-negative, for every solver name and all random outcomes. C167_unconstrained, C167_default_starts: when a start succeeds for certain. C167_solver_ignored, C167_refused, C167_choices_false: the names that cannot start a chain.'),
'C168': ('partial', 'C168_accepted_iff: exact test; C168_outside_fixed: cells outside the smaller table are never moved. C168_false: a 2x2 basis is accepted for a 3x3 table.'),
'C169': ('partial', 'C169_resume_raises, C169_lookup_fails, C169_unreadable_restarts, C169_not_asked, C169_resumed_iff: exact behaviour. C169_check_iff, C169_check_false: the completeness test looks at the log only. C169_false: the negation for every readable sweep with a configuration. No positive part holds beyond C169_not_asked.'),
'C170': ('partial', 'C170_relative_exact, C170_relative_iff, C170_zero_line, C170_overstated: exact behaviour of the relative residual and when it is right. C170_margin, C170_margin_undefined, C170_margin_seeds: the margin error is right. C170_sparsity, C170_sparsity_range: sparsity is the mean share of zeros. C170_false, C170_sparsity_false: the negations.'),
'C171': ('partial', 'C171_accepts_iff: exact test; C171_completed: all rows of a completed run are valid, for every schedule. C171_complete_iff_partial: the full statement when every sample is written. C171_late_start, C171_false: otherwise the first step aborts.'),
'C172': ('partial', 'C172_seeded, C172_single, C172_sweep_sequential, C172_sweep_concurrent: a seeded experiment on its own, and every member of a seeded sweep, uses the random numbers of its configuration. C172_together_exact: exact states when several are configured; C172_together_partial: when they are right. C172_together_false, C172_same_seed_false, C172_unseeded_false: the negations. C172_unseeded_copies, C172_stopping_reused: exact behaviour of forked unseeded workers and of stopping times.'),
'C173': ('partial', 'C173_completes_iff: exact condition for completing; C173_reported: what is reported then, for every history; C173_thinned_aborts: a late or thinned schedule aborts; C173_not_exported, C173_sim_theta_false: acceptances never reported.'),
'C174': ('partial', 'C174_exact: rows stored for every schedule; C174_on_schedule_iff: exactly when this is the schedule; C174_false: the negation.'),
'C175': ('partial', "C175_exact: exact contents of every file for every history; C175_single, C175_failed_single: a single run's log is complete. C175_sweep_exact, C175_failed_member, C175_forked, C175_killed, C175_killed_nothing, C175_levels: exact behaviour of sweeps, workers and killed processes. C175_sweep_false, C175_killed_false: the negations."),
'C176': ('partial', 'C176_completes_iff: exactly when it completes; C176_result_partial: the full statement about the result when it does. C176_coupled_raises, C176_overridden: exact behaviour otherwise; C176_islice: slices. C176_false, C176_conflict_false: the negations.'),
'C177': ('partial', 'C177_single: one group; C177_second: exact behaviour of a second group; C177_label_sweep, C177_label_other: labels. C177_false: the negation.'),
'C178': ('partial', 'C178_coordinates, C178_minor_only, C178_split, C178_btt, C178_dict, C178_exclusive: the full statement for each kind of option. C178_third_dropped, C178_margins_values, C178_margins_swallow, C178_margins_text: exact behaviour otherwise. C178_third_false, C178_margins_false: the negations.'),
'C179': ('partial', 'C179_value, C179_transpose, C179_zero_iff, C179_separates: the full statement apart from symmetry; C179_symmetric: symmetry for equal column totals. C179_symmetric_false, C179_both_raises, C179_both_false: the negations.'),
'C180': ('partial', 'C180_absolute: absolute errors; C180_denominator, C180_exact, C180_own_value, C180_zero_row: exact behaviour of the relative error, and when it is right. C180_false: the negation. relative_l_0 and markov_basis_distance raise on every input (wrong keyword arguments) and are not modelled.'),
'C181': ('partial', 'C181_counts: nonnegative and right total for every draw; C181_first_guess: a mode if no correction is needed; C181_le_gall: the cited algorithm is right. C181_false: the negation for the code.'),
'C182': ('partial', 'C182_likelihood, C182_gradient, C182_loss, C182_scale, C182_degenerate: the full statement apart from the agreement. C182_argument_ignored: exact behaviour; C182_same_false: the negation.'),
'C183': ('partial', "C183_exists, C183_infinite, C183_iff: exactly when the constant exists (totally constrained); C183_prior: the annealer's first potential; C183_production: the production constrained potential as coded. C183_false: the negation for delta = 0."),
'C184': ('partial', 'C184_slices, C184_by_experiment, C184_kept: the statement for slices, outputs and different paths. C184_replaced, C184_shared_directory, C184_formats, C184_csv_ungrouped: exact behaviour otherwise. C184_false: the negation.'),
'C185': ('partial', "C185_complete: the statement when every feature is stored. C185_absent, C185_colour, C185_harmless, C185_marker_size, C185_first_only, C185_directories: exact behaviour otherwise. C185_false: the negation for a figure made with the command's defaults."),
'C186': ('partial', 'C186_rows, C186_y_scale, C186_x_ticks: the statement for row groups, the y scale and the x ticks. C186_labels, C186_scales, C186_x_scale, C186_ticks: exact behaviour. C186_label_false, C186_scale_false, C186_tick_false: the negations.'),
'C187': ('partial', 'C187_legend, C187_columns: the entries of the legend. C187_last_panel, C187_asked_iff, C187_lines: exact behaviour of place and lines. C187_place_false, C187_line_false: the negations.'),
'C188': ('partial', 'C188_exists (all alpha), C188_unique, C188_minimum, C188_positive, C188_saddle: the statement for alpha at most one. C188_hessian: the second derivatives. C188_cholesky: positive definite matrices are those with a factor. C188_false: the negation for alpha = 2.'),
'C189': ('partial', 'C189_run, C189_sweep, C189_sweep_run: the statement where the switch is given, in the experiment only. C189_missing(_false): not given, every sweep raises (KeyError). C189_twice_false, C189_twice_raises: given twice with different values.'),
'C190': ('partial', 'C190_ids (with brackets, nested lists of plain values), C190_sweep_ids (discharges the printing premise of C37), C190_labels (flat lists): the statement for plain values without scientific notation. C190_scientific: what is left of a number in scientific notation; C190_scientific_shared: among eleven numbers of one decade two share a label; C190_scientific_false, C190_false: the negations.'),
'C191': ('partial', 'C191_unique (alpha at most one, delta positive or alpha below one), C191_exists (delta positive, any alpha: the minimum of the Harris-Wilson potential), C191_minimum, C191_total (sum and bounds), C191_demand (the demand of a step is the column sum when there are two origins or one destination). Negations: C191_false (alpha = 2: three equilibria), C191_coded and C191_coded_false (the coded potential is stationary at origin demand plus delta, not at rest), C191_single_origin_false (one origin: the step raises).'),
'C192': ('partial', 'C192_production, C192_total: for alpha at most one, delta positive and all starts in a box of positive numbers there is a bound on the step size below which the run converges. C192_false: step size 5/3 alternates between two values for ever.'),
'C193': ('partial', 'C193_numbers, C193_group_iff (several variables with numbers), C193_text and C193_text_iff (a text is shown as its listed expression, else as the empty text), C193_sigma_iff (the noise regime), C193_missing, C193_label_iff (just when a label exists), C193_label_text, C193_label_sigma_iff (three decimals). Negations: C193_false (unlisted texts), C193_titles_false, C193_sigma_false, C193_label_number_false.'),
'C194': ('partial', "C194_regime and C194_regime_iff (markers and hatches by sigma), C194_title and C194_titles_apart (colours by title), C194_sizes, C194_literal, C194_table_iff (just which keys do not raise), C194_sizes_text and C194_annotate (text-valued size and annotation keys), C194_nothing (an absent key). Negations: C194_line_style_false, C194_title_false, C194_object_false (a key that eval takes for an object, as it does 'type')."),
'C195': ('partial', 'C195_rows_iff (ids of two settings differ just when the settings differ, counting for sigma only the noise regime), C195_settings (pairwise different settings meet the hypothesis of C124_table). Negation: C195_sigma_false (one row, holding the value of the second).'),
'C196': ('proved', "C196_converges and C196_converges_given_table (distance to the posterior mean at most (1 - 4 c exp(-2B))^n), C196_forgets (two runs, any walk with density at least c), C196_limit, C196_normal_walk (the program's normal steps, explicit c), C196_exact (totally constrained potential with exact normalising constant: the bound exists, uniformly in the parameters), C196_still (step size 0 never moves). Exact real arithmetic; z is a function of the parameters (not the random estimate)."),
'C197': ('proved', "C197_mean_square and C197_mean_square_given_table (explicit constant), C197_misses (Chebyshev), C197_consistent (limit), C197_exact (totally constrained potential with exact normalising constant and the program's normal walk: one constant for all functions, starts and N), C197_burnin (the same after any number of discarded iterations). No thinning; exact real arithmetic; z is a function of the parameters (not the random estimate)."),
'C198': ('partial', 'C198_mean_square_partial (D/K from every reachable table), C198_burnin_partial, C198_misses_partial, C198_consistent_partial: estimates of the target law on the tables that the generated basis connects with the start. C198_two_by_two: the full statement for 2x2 tables without fixed cells. C198_false: in general the basis does not connect all tables, so the running frequency of a possible table can be 0 for ever.'),
'C199': ('partial', 'With scaling factor one: C199_forgets_partial and C199_converges_partial (any direct draw that leaves the law of the table given the parameters invariant), C199_total_partial (tables with known total), C199_rows_partial (known row sums). For another scaling factor the claim is false (C199_false, for every number of parameter steps: the table is drawn at the unscaled parameters, so the law never approaches the joint posterior).'),
'C200': ('partial', 'With scaling factor one: C200_mean_square_partial, C200_misses_partial, C200_consistent_partial, C200_burnin_partial (after any number of discarded iterations), C200_thinning_partial (keeping every k-th sample) (any direct draw that leaves the law of the table given the parameters invariant), C200_total_partial (tables with known total), C200_rows_partial (known row sums). For another scaling factor the law of the samples does not approach the joint posterior (C199_false) and the posterior is not even invariant (C158_scaling_false).'),
}
