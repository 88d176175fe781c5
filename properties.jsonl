{"id": "C01", "title": "One-margin Markov basis moves leave the constrained margins and the fixed cells unchanged", "statement": "When exactly one singleton margin (rows or columns) is constrained, every move in the generated Markov basis, added any integer number of times to any table, leaves that margin, the grand total and every fixed cell unchanged; the two touched cells are distinct free cells.", "quantifier": "all table dimensions, all sets of fixed cells, all tables, all integer step sizes, all moves of the generated basis", "why_tests_cant": "the set of tables, dimensions and fixed-cell patterns is infinite; a test samples a few small tables", "anchors": ["gensit/contingency_table/MarkovBasis.py: generate_one_margin_preserving_markov_basis, active_candidates, basis_function_admissible"]}
{"id": "C02", "title": "Both-margin Markov basis moves leave row sums, column sums and fixed cells unchanged", "statement": "When both margins are constrained, every move emitted by the basis generator - whichever random partner cell it draws - added any number of times to any table leaves all row sums, column sums, the total and all fixed cells unchanged, and touches exactly four distinct free cells.", "quantifier": "all dimensions, all fixed-cell sets, all random partner choices, all tables and step sizes", "why_tests_cant": "random partner choice and unbounded dimensions cannot be enumerated by tests", "anchors": ["gensit/contingency_table/MarkovBasis.py: construct_both_margin_preserving_markov_basis_for_cell, build_basis_dictionaries_in_sequence"]}
{"id": "C03", "title": "The one-margin basis is complete, duplicate-free and has the documented length", "statement": "The one-margin basis enumerates exactly the unordered pairs of free cells that share a row (column), each once, and with no fixed cells its length equals the true_markov_basis_length formula rows*cols*(cols-1)/2 (resp. cols*rows*(rows-1)/2).", "quantifier": "all dimensions and fixed-cell sets", "why_tests_cant": "a counting identity over all sizes", "anchors": ["gensit/contingency_table/MarkovBasis.py: generate_one_margin_preserving_markov_basis, true_markov_basis_length"]}
{"id": "C04", "title": "The one-margin basis connects the whole fibre", "statement": "Any two non-negative tables with the same constrained margin and the same fixed cells can be joined by finitely many +-1 applications of moves of the generated one-margin basis with every intermediate table non-negative, so a sampler driven by it can reach every admissible table.", "quantifier": "all dimensions, all fixed-cell sets, all pairs of admissible tables", "why_tests_cant": "reachability over an unbounded state space", "anchors": ["gensit/contingency_table/MarkovBasis.py: generate_one_margin_preserving_markov_basis", "gensit/contingency_table/ContingencyTable_MCMC.py: degree_one_proposal_2way_table"]}
{"id": "C05", "title": "The both-margin basis connects the whole fibre", "statement": "Any two non-negative tables with equal row and column sums (no fixed cells) can be joined by moves of the generated both-margin basis staying non-negative, for every outcome of the generator's random choices.", "quantifier": "all dimensions, all pairs of tables, all random outcomes of the generator", "why_tests_cant": "reachability over an unbounded state space and over the generator's randomness", "anchors": ["gensit/contingency_table/MarkovBasis.py: construct_both_margin_preserving_markov_basis_for_cell, true_markov_basis_length"]}
{"id": "C06", "title": "Degree-one Metropolis-Hastings table step preserves admissibility", "statement": "A degree-one proposal followed by the accept/reject step returns a non-negative table with the same constrained margins and fixed cells as the current one, for every move, step size and uniform draw; a proposal with a negative cell is always rejected.", "quantifier": "all admissible current tables, basis moves, step sizes, uniforms, intensities", "why_tests_cant": "every random draw and every table must be covered", "anchors": ["gensit/contingency_table/ContingencyTable_MCMC.py: degree_one_proposal_2way_table, metropolis_log_acceptance_ratio_2way_table, table_gibbs_step, table_metropolis_hastings_step"]}
{"id": "C07", "title": "Degree-higher (2x2 hypergeometric) table step preserves admissibility", "statement": "Resampling a 2x2 sub-table with any value from the hypergeometric support keeps the sub-table's row sums, column sums and non-negativity, hence every row sum, column sum and fixed cell of the whole table.", "quantifier": "all tables, all basis moves, all draws in the support", "why_tests_cant": "unbounded cell values and dimensions", "anchors": ["gensit/contingency_table/ContingencyTable_MCMC.py: degree_higher_proposal_2way_table_fishers_hypergeometric"]}
{"id": "C08", "title": "Every table the sampler ever returns is admissible", "statement": "Starting from an admissible non-negative table, after any finite sequence of table steps of any of the implemented proposals the current table is non-negative, matches all constrained margins and all fixed cells.", "quantifier": "all constraint sets, all initial admissible tables, all sequences of random draws of any length", "why_tests_cant": "chain histories of unbounded length", "anchors": ["gensit/contingency_table/ContingencyTable_MCMC.py: table_gibbs_step", "gensit/experiments.py: JointTableSIM_MCMC.run, Table_MCMC.run", "gensit/contingency_table/__init__.py: table_admissible"]}
{"id": "C09", "title": "Step-size support is exactly the set of feasible steps", "statement": "The list of step sizes offered for a move and a non-negative table contains exactly the integers eps for which table + eps*move has no negative cell.", "quantifier": "all non-negative tables and all +-1 moves", "why_tests_cant": "both inclusion directions over all integers", "anchors": ["gensit/contingency_table/ContingencyTable_MCMC.py: get_table_step_size_support"]}
{"id": "C10", "title": "Metropolis log acceptance ratio equals the target log ratio", "statement": "For non-negative tables the log-target difference used to accept a degree-one proposal equals sum log(prev!) - log(new!) plus the log-intensity term.", "quantifier": "all pairs of tables that differ by a move, all intensities", "why_tests_cant": "an algebraic identity over unbounded cell values; a sample of 0/1 tables cannot distinguish wrong formulas", "anchors": ["gensit/contingency_table/ContingencyTable_MCMC.py: log_target_measure_difference_2way_table, metropolis_log_acceptance_ratio_2way_table"]}
{"id": "C11", "title": "Direct sampling returns only admissible tables", "statement": "Whenever the direct-sampling proposal returns a table, that table satisfies all constrained margins and equals the known values at the fixed cells, whatever the underlying random generator produced.", "quantifier": "all constraint sets, all outputs of the random generators, all retry histories", "why_tests_cant": "rejection loops of unbounded length", "anchors": ["gensit/contingency_table/ContingencyTable_MCMC.py: direct_sampling_proposal_2way_table, multinomial_sample_2way_table, product_multinomial_sample_2way_table"]}
{"id": "C12", "title": "Multinomial direct sampling distributes exactly the residual total over the free cells", "statement": "With only the grand total constrained, the sampled table has grand total equal to the constrained total and agrees with the known values on fixed cells for every multinomial draw.", "quantifier": "all tables, fixed-cell sets and multinomial draws with the residual total", "why_tests_cant": "every draw", "anchors": ["gensit/contingency_table/ContingencyTable_MCMC.py: multinomial_sample_2way_table"]}
{"id": "C13", "title": "Product-multinomial direct sampling puts each group's counts into that group's free cells", "statement": "With one singleton margin constrained, the per-row (per-column) multinomial counts are written to the free cells of the same row (column), so the constrained margin is met for every draw without retrying.", "quantifier": "all dimensions, fixed-cell sets, constrained axis in {rows, columns} and all draws", "why_tests_cant": "the layout must be right for every dimension and both axes", "anchors": ["gensit/contingency_table/ContingencyTable_MCMC.py: product_multinomial_sample_2way_table"]}
{"id": "C14", "title": "Monte Carlo initialisation meets both margins for every permutation", "statement": "With no fixed cells, the table built by slicing a random permutation of 1..N by row margins and counting column ranges is non-negative and has exactly the requested row and column sums.", "quantifier": "all dimensions, all consistent non-negative margins, all permutations", "why_tests_cant": "N! permutations", "anchors": ["gensit/contingency_table/__init__.py: table_monte_carlo_sample"]}
{"id": "C15", "title": "Maximum-entropy initialisation always reaches an admissible table", "statement": "With consistent non-negative margins and no fixed cells, the randomised unit-allocation loop terminates for every sequence of random cell choices and returns a non-negative table satisfying every constrained margin; it never runs out of candidate cells beforehand.", "quantifier": "all dimensions, margins and choice sequences", "why_tests_cant": "every choice sequence; termination", "anchors": ["gensit/contingency_table/__init__.py: table_maximum_entropy_solution, minres_given_constraints, update_margins_from_cells"]}
{"id": "C16", "title": "Residual margins equal margins minus fixed cells", "statement": "After cell constraints are propagated, each residual margin equals the corresponding margin minus the sum of the known values of the fixed cells contributing to it, and the free-cell list is exactly the complement of the fixed cells.", "quantifier": "all tables, margins and fixed-cell sets", "why_tests_cant": "bookkeeping must hold for every pattern of fixed cells including those inferred deterministically", "anchors": ["gensit/contingency_table/__init__.py: propagate_cell_constraints, update_residual_margins_from_cell_constraints, update_margins_from_cells, update_cell_constraints_deterministically"]}
{"id": "C17", "title": "Deterministically inferred cells are forced", "statement": "Every cell added by deterministic propagation has the same value in every table that satisfies the constrained margins and the previously fixed cells, and propagation stops with no constrained margin line having exactly one free cell.", "quantifier": "all tables, fixed-cell sets and constrained axes", "why_tests_cant": "a statement about all admissible tables", "anchors": ["gensit/contingency_table/__init__.py: update_cell_constraints_deterministically"]}
{"id": "C18", "title": "Constrained axes are closed under derivation", "statement": "The inferred constrained axis set contains the given axes, contains every axis tuple that includes a constrained one, contains nothing else, and inferring again changes nothing.", "quantifier": "all dimensions and all sets of constrained axes", "why_tests_cant": "all subsets of the axis power set", "anchors": ["gensit/contingency_table/__init__.py: infer_derivative_margin_axes, read_constraints", "gensit/utils/misc_utils.py: tuple_contained", "gensit/utils/math_utils.py: powerset"]}
{"id": "C19", "title": "Constrained and unconstrained axes partition all axes", "statement": "After reading constraints each axis tuple of the table is either constrained or unconstrained and never both; the same-length complement returns exactly the other axis tuples of that length.", "quantifier": "all dimensions and axis sets", "why_tests_cant": "all subsets", "anchors": ["gensit/contingency_table/__init__.py: axes_complement, read_constraints"]}
{"id": "C20", "title": "table_admissible accepts exactly the admissible tables", "statement": "table_admissible(t) is true iff t has the required sum along every constrained axis and equals the known value at every fixed cell.", "quantifier": "all tables, constraint sets, margins", "why_tests_cant": "both directions over all tables", "anchors": ["gensit/contingency_table/__init__.py: table_admissible, table_margins_admissible, table_cells_admissible, table_constrained_margins_summary_statistic"]}
{"id": "C21", "title": "Constraint set determines the table distribution", "statement": "No constrained axes gives Poisson, only the total gives multinomial, one singleton margin gives product multinomial, both give Fisher's hypergeometric; an unsupported number of singleton axes raises.", "quantifier": "all lists of constrained axes", "why_tests_cant": "all lists, including duplicates and orderings", "anchors": ["gensit/contingency_table/__init__.py: map_constraints_to_distribution_name"]}
{"id": "C22", "title": "Unsupported proposal/distribution pairs are replaced before sampling", "statement": "After construction, a two-way table sampler whose distribution is tractable uses direct sampling or otherwise a supported proposal, as the warning messages announce.", "quantifier": "all distributions, proposals and fixed-cell sets", "why_tests_cant": "a decision table over all configurations; the observable attribute must match the announced switch", "anchors": ["gensit/contingency_table/ContingencyTable_MCMC.py: update_proposal_type, build_table_distribution"]}
{"id": "C23", "title": "Margins read from a table are mutually consistent", "statement": "After a non-negative table is loaded, the row margins, the column margins and the total stored for it all sum to the same grand total and equal the table's own sums.", "quantifier": "all non-negative tables of any dimension", "why_tests_cant": "all tables", "anchors": ["gensit/contingency_table/__init__.py: update_margins_from_table, update_table"]}
{"id": "C24", "title": "Cycle-based basis moves preserve both margins and respect fixed cells", "statement": "Every move derived from a cycle of the bipartite free-cell graph alternates +1/-1 on free cells and leaves all row and column sums unchanged.", "quantifier": "all bipartite graphs, all simple cycles of any even length", "why_tests_cant": "all cycles", "anchors": ["gensit/contingency_table/MarkovBasis.py: find_all_cycles, _dfs, generate_both_margin_preserving_markov_basis"]}
{"id": "C25", "title": "Each cycle is reported once up to rotation and direction", "statement": "Two node sequences that are rotations or reversals of one another receive the same canonical form, and sequences with the same canonical form are rotations or reversals of one another, so the collected cycle list has no repeats.", "quantifier": "all simple cycles of any length", "why_tests_cant": "all rotations of all cycles", "anchors": ["gensit/contingency_table/MarkovBasis.py: _add_unique_cycle"]}
{"id": "C26", "title": "Constraint table exposes exactly the fixed cells", "statement": "constraint_table() equals the known value at each fixed cell and -1 everywhere else, so a cell is shown free iff it is not fixed (for non-negative tables).", "quantifier": "all tables and fixed-cell sets", "why_tests_cant": "all patterns", "anchors": ["gensit/contingency_table/__init__.py: constraint_table"]}
{"id": "C27", "title": "Imported Markov basis is filtered to admissible moves", "statement": "After importing a basis and updating it, every retained move has zero sums along every constrained axis and no entry at a fixed cell, and no admissible move is dropped.", "quantifier": "all imported move lists", "why_tests_cant": "all lists", "anchors": ["gensit/contingency_table/MarkovBasis.py: update_markov_basis, basis_function_admissible, import_markov_basis"]}
{"id": "C28", "title": "path_set then path_get returns the stored value", "statement": "Setting a value at an existing key path with overwrite and reading the same path returns (value, True).", "quantifier": "all nested settings, all existing key paths, all values", "why_tests_cant": "all nesting depths", "anchors": ["gensit/config.py: path_set, path_get"]}
{"id": "C29", "title": "path_set touches nothing but its path", "statement": "After path_set at one path, reading any path that is neither a prefix nor an extension of it gives what it gave before.", "quantifier": "all settings and pairs of paths", "why_tests_cant": "all pairs of paths", "anchors": ["gensit/config.py: path_set, path_get"]}
{"id": "C30", "title": "path_set reports success only if the value is stored", "statement": "If path_set returns True then path_get at that path returns the value.", "quantifier": "all settings, paths, values, overwrite flags", "why_tests_cant": "includes missing intermediate keys, which tests rarely exercise", "anchors": ["gensit/config.py: path_set"]}
{"id": "C31", "title": "path_find returns exactly the paths of a key", "statement": "path_find(key) returns exactly the key paths in the settings whose last component is that key, without duplicates.", "quantifier": "all nested dictionaries (dict and list values) and keys", "why_tests_cant": "all nesting shapes, including a key nested beneath itself", "anchors": ["gensit/config.py: path_find, path_exists"]}
{"id": "C32", "title": "path_exists agrees with path_find", "statement": "path_exists(key) is true iff path_find(key) is non-empty.", "quantifier": "all nested settings and keys", "why_tests_cant": "all nesting shapes", "anchors": ["gensit/config.py: path_exists, path_find"]}
{"id": "C33", "title": "path_delete removes exactly the requested entry", "statement": "Deleting an existing path makes it unreadable and leaves every unrelated path readable with its old value; deleting a missing path changes nothing.", "quantifier": "all settings and paths", "why_tests_cant": "all pairs of paths", "anchors": ["gensit/config.py: path_delete"]}
{"id": "C34", "title": "update_recursively merges as documented", "statement": "update_recursively(d,u,overwrite) reads at each path as u where u has a leaf and overwrite is set, and as d elsewhere; without overwrite keys present in d keep their value; the key order and all other keys of d survive.", "quantifier": "all pairs of nested dictionaries", "why_tests_cant": "all shapes", "anchors": ["gensit/utils/misc_utils.py: update_recursively, deep_merge"]}
{"id": "C35", "title": "Sweep configurations are exactly the product of isolated and coupled sweeps", "statement": "The list of sweep configurations contains, once each, every choice of one value for each isolated sweep and one row of each coupled sweep, and nothing else; its length is the product of the sweep lengths.", "quantifier": "all numbers and lengths of isolated and coupled sweeps", "why_tests_cant": "unbounded products", "anchors": ["gensit/config.py: prepare_sweep_configurations, parse_sweep_params", "gensit/utils/misc_utils.py: expand_tuple"]}
{"id": "C36", "title": "Each sweep configuration is written to the right settings paths", "statement": "The per-experiment config built for a sweep configuration holds, at every sweep parameter's path, that configuration's value for that parameter, and agrees with the base config elsewhere; the base config itself is unchanged.", "quantifier": "all configs, sweep paths and configurations", "why_tests_cant": "positional alignment for every number of parameters", "anchors": ["gensit/config.py: prepare_experiment_config"]}
{"id": "C37", "title": "Sweep ids identify sweep configurations", "statement": "The sweep id does not depend on the order of the sweep dictionary, and two configurations with different values for some target parameter get different ids (so their outputs do not collide).", "quantifier": "all sweep dictionaries", "why_tests_cant": "all pairs of configurations", "anchors": ["gensit/config.py: get_sweep_id"]}
{"id": "C38", "title": "Coupled sweeps of unequal length are rejected", "statement": "If two coupled sweep parameters have ranges of different length, sweep parsing raises instead of silently truncating.", "quantifier": "all coupled sweep groups and lengths", "why_tests_cant": "all lengths", "anchors": ["gensit/config.py: parse_sweep_params"]}
{"id": "C39", "title": "Group ids partition sweep dimensions", "statement": "Every sweep dimension ends up either in the shared or the non-shared part of a group id, never both, and configurations equal on the non-shared part get the same group id.", "quantifier": "all sweep dictionaries and group_by lists", "why_tests_cant": "all subsets", "anchors": ["gensit/config.py: get_group_id"]}
{"id": "C40", "title": "Slicing sweep configurations only filters", "statement": "slice_sweep_configurations returns a sub-list, in order, of the configurations, keeping exactly those matching every requested slice.", "quantifier": "all configuration lists and slices", "why_tests_cant": "all lists", "anchors": ["gensit/config.py: slice_sweep_configurations", "gensit/utils/misc_utils.py: parse_slice_by"]}
{"id": "C41", "title": "Range validation accepts exactly the documented interval", "statement": "in_range(v, limits, inclusive) is true iff v lies in the closed (inclusive) or open (exclusive) interval, with missing limits unbounded.", "quantifier": "all numbers, limits and flags", "why_tests_cant": "all reals; boundary points", "anchors": ["gensit/utils/misc_utils.py: in_range", "gensit/utils/config_data_structures.py: PrimitiveEntry.check_range"]}
{"id": "C42", "title": "Range strings in configs expand to the inclusive arithmetic progression", "statement": "A custom list 'a:b' expands to a,a+1,...,b and 'a:b:s' to a,a+s,... not exceeding b; anything with more colons is rejected.", "quantifier": "all integers a,b and positive steps s", "why_tests_cant": "all triples", "anchors": ["gensit/utils/config_data_structures.py: CustomList._parse"]}
{"id": "C43", "title": "deep_flatten, deep_get, deep_update and deep_delete agree on occurrences", "statement": "deep_get(key) yields exactly the values stored under key anywhere; after deep_delete(key) it yields nothing and all other keys are kept; after deep_update with overwrite every yielded value is the new one.", "quantifier": "all nested dictionaries and keys", "why_tests_cant": "all shapes", "anchors": ["gensit/utils/misc_utils.py: deep_get, deep_update, deep_delete, deep_flatten"]}
{"id": "C44", "title": "Table serialisation round-trips", "statement": "Converting a table to its sparse dictionary, its string form or its cell map and back returns the same table.", "quantifier": "all tables with at least one cell, entries 32-bit integers (the element type of the code) for the dictionary form", "why_tests_cant": "all tables", "anchors": ["gensit/utils/misc_utils.py: f_to_array, array_to_f, table_to_str, str_to_table, tuple_to_str, str_to_tuple"]}
{"id": "C45", "title": "Chunking loses and reorders nothing", "statement": "Concatenating the chunks returns the original list, each chunk has at most the chunk size, only the last may be shorter, so a concurrent sweep runs every configuration exactly once.", "quantifier": "all lists and positive chunk sizes", "why_tests_cant": "all lengths", "anchors": ["gensit/utils/misc_utils.py: divide_chunks", "gensit/experiments.py: ExperimentSweep.run_concurrent"]}
{"id": "C46", "title": "Bounded executor never exceeds its task bound and never loses permits", "statement": "At every moment the number of submitted-but-unfinished tasks is at most the configured bound, permits in the semaphore plus in-flight tasks stay constant, and a blocked submitter is always released once a task finishes.", "quantifier": "all bounds and all interleavings of submissions and completions", "why_tests_cant": "all schedules", "anchors": ["gensit/utils/multiprocessor.py: BoundedQueuePoolExecutor.submit, release"]}
{"id": "C47", "title": "Concurrent collection returns the same results as sequential collection up to order", "statement": "For every completion order the concurrently collected list of non-empty results is a permutation of the sequential one.", "quantifier": "all task lists, result functions and completion orders", "why_tests_cant": "all schedules", "anchors": ["gensit/outputs.py: get_sweep_outputs_concurrently, get_sweep_outputs_sequentially"]}
{"id": "C48", "title": "Progress-bar slots are claimed at most once", "statement": "position_index returns the first free slot if there is one and otherwise the list length; sequential claim/release never hands the same slot to two running jobs.", "quantifier": "all slot vectors and claim/release histories", "why_tests_cant": "all histories; interleavings of claims", "anchors": ["gensit/utils/misc_utils.py: position_index", "gensit/experiments.py: prepare_instantiate_and_run, run_concurrent"]}
{"id": "C49", "title": "Burn-in, thinning and trimming select the documented iterations", "statement": "Slicing with burnin b, thinning k and trimming m keeps exactly the iterations b, b+k, b+2k,... below the total, at most m of them, in order; if that would be empty the data are kept unsliced.", "quantifier": "all totals, b, k>0, m", "why_tests_cant": "all parameters", "anchors": ["gensit/outputs.py: slice_coordinates_by_index"]}
{"id": "C50", "title": "Samples are written on schedule", "statement": "After T iterations the number of stored rows equals the number of iterations t<=T with t>=write_start and t divisible by write_every, and row r is the r-th such iteration, for every dataset alike.", "quantifier": "all T, write_start, write_every>0", "why_tests_cant": "all schedules", "anchors": ["gensit/experiments.py: write_data, model_update_and_export"]}
{"id": "C51", "title": "The recorded time coordinate describes the stored rows", "statement": "The (start, step) time attribute attached to each dataset gives, for each stored row, the iteration at which it was written.", "quantifier": "all write_start, write_every", "why_tests_cant": "all parameters", "anchors": ["gensit/experiments.py: initialise_data_structures, write_data"]}
{"id": "C52", "title": "Existing metadata is never overwritten unless requested", "statement": "write_metadata leaves an existing file unchanged unless overwrite is set, and always leaves a file in place; the same for exported tables and Markov bases.", "quantifier": "all file-system states and sequences of writes", "why_tests_cant": "all histories", "anchors": ["gensit/outputs.py: write_metadata", "gensit/contingency_table/__init__.py: export", "gensit/contingency_table/MarkovBasis.py: export_markov_basis"]}
{"id": "C53", "title": "Grouping partitions the samples", "statement": "Grouping samples into a data collection places every sample in exactly one group and samples in one group agree on all shared coordinates with the group's first member.", "quantifier": "all sample lists and group-by sets", "why_tests_cant": "all lists", "anchors": ["gensit/outputs.py: DataCollection.group_sample"]}
{"id": "C54", "title": "Progress batches cover all iterations", "statement": "The cumulative batch boundaries are non-decreasing and end exactly at N, for every store_progress in (0,1].", "quantifier": "all N and store_progress", "why_tests_cant": "all fractions", "anchors": ["gensit/experiments.py: define_sample_batch_sizes"]}
{"id": "C55", "title": "Production-constrained intensities meet the origin totals", "statement": "The production-constrained intensity matrix is strictly positive and its i-th row sums to origin_demand_i * grand_total, for every parameter value, cost matrix and attraction vector.", "quantifier": "all real parameters, costs, log-attractions, positive demands and totals, all dimensions", "why_tests_cant": "all reals", "anchors": ["gensit/intensity_models/spatial_interaction_models/ProductionConstrained/__init__.py: log_flow_matrix"]}
{"id": "C56", "title": "Totally-constrained intensities meet the grand total", "statement": "The totally-constrained intensity matrix is strictly positive and sums to grand_total.", "quantifier": "all real parameters, costs, attractions, dimensions", "why_tests_cant": "all reals", "anchors": ["gensit/intensity_models/spatial_interaction_models/TotallyConstrained/__init__.py: log_flow_matrix"]}
{"id": "C57", "title": "theta samples stay inside the parameter box", "statement": "The reflected random-walk update returns a theta with every component in [0,2) whenever the previous theta has, for every random step and acceptance outcome; a reflected proposal still outside is rejected and returns the previous sample and auxiliary values unchanged.", "quantifier": "all previous thetas in the box, all step vectors, acceptance draws, over any number of steps", "why_tests_cant": "all histories", "anchors": ["gensit/learning_models/HarrisWilsonModel_MCMC.py: theta_gibbs_step, theta_given_table_gibbs_step"]}
{"id": "C58", "title": "Leapfrog proposals are reversible", "statement": "Running the HMC leapfrog integrator, negating the momentum and running it again returns to the start with negated momentum, for every potential; this is what makes the accept/reject rule correct.", "quantifier": "all gradients, step sizes, numbers of steps and starting points", "why_tests_cant": "all trajectories", "anchors": ["gensit/learning_models/HarrisWilsonModel_MCMC.py: annealed_importance_sampling_log_z, log_destination_attraction_gibbs_step, log_destination_attraction_given_table_gibbs_step"]}
{"id": "C59", "title": "Highest-density interval is valid and minimal", "statement": "The interval returned for sorted samples and mass m has endpoints among the samples, spans at least floor(m*N) gaps, and no other window spanning the same number of samples is shorter.", "quantifier": "all sorted sample lists and masses", "why_tests_cant": "all sample lists", "anchors": ["gensit/utils/math_utils.py: calculate_min_interval"]}
{"id": "C60", "title": "Edit distances are metrics on fixed-margin tables", "statement": "The degree-one edit distance is symmetric, zero iff tables are equal, and satisfies the triangle inequality; for tables with equal totals it is a whole number of unit moves.", "quantifier": "all integer tables", "why_tests_cant": "all triples of tables", "anchors": ["gensit/utils/math_utils.py: edit_distance_degree_one"]}
{"id": "C61", "title": "Neural-net architecture honours layer-specific overrides", "statement": "The layer size list starts with the input size, ends with the output size, has n_layers hidden entries, each equal to its layer-specific value if given and to the default otherwise; an out-of-range layer index raises.", "quantifier": "all sizes, defaults and override dictionaries", "why_tests_cant": "all dictionaries", "anchors": ["gensit/learning_models/HarrisWilsonModel_NeuralNet.py: get_architecture, get_bias, get_activation_funcs"]}
{"id": "C62", "title": "Noise regime classification is total and consistent with sigma", "statement": "Every sigma is mapped to exactly one regime; positive sigma is low iff 2/sigma^2 >= 10000, and the regime recorded in output folder names is the classification of the configured sigma.", "quantifier": "all sigma values", "why_tests_cant": "all reals", "anchors": ["gensit/utils/misc_utils.py: sigma_to_noise_regime", "gensit/outputs.py: update_experiment_directory_id"]}
{"id": "C63", "title": "Cycle search finds exactly the simple cycles up to the length bound", "statement": "A node sequence with at most max_length nodes is a simple cycle of the free-cell graph if and only if, up to starting point and direction, it is in the list returned by the cycle search.", "quantifier": "all bipartite free-cell graphs, all length bounds", "why_tests_cant": "completeness over all graphs", "anchors": ["gensit/contingency_table/MarkovBasis.py: find_all_cycles, _dfs_find_cycles"]}
{"id": "C64", "title": "Cycle basis connects the fibre also with fixed cells", "statement": "Any two non-negative tables with the same margins and the same fixed cells are joined by unit applications of cycle moves through non-negative tables.", "quantifier": "all table shapes, fixed cell sets and pairs of tables", "why_tests_cant": "infinitely many fibres", "anchors": ["gensit/contingency_table/MarkovBasis.py: generate_both_margin_preserving_grobner_markov_basis"]}
{"id": "C65", "title": "deep_flatten keeps exactly one value per leaf key", "statement": "deep_flatten(d) has exactly one entry for every key that holds a non-dictionary value anywhere in d; the entry is a value stored under that key, and is that value whenever the key is used only once (otherwise the last one silently wins).", "quantifier": "all nested dictionaries", "why_tests_cant": "Any nesting and any pattern of repeated keys; unit tests fix a handful of trees.", "anchors": ["gensit/utils/misc_utils.py:deep_flatten"]}
{"id": "C66", "title": "Config.update stores the value and touches nothing else", "statement": "Config.update({key: value}) for a key present in the settings stores the value at a path of that key, readable by path_get, and leaves every unrelated path unchanged.", "quantifier": "all nested settings and keys", "why_tests_cant": "All trees and keys; the search and the write interact through the mutable path list.", "anchors": ["gensit/config.py:Config.update", "gensit/config.py:Config.path_find", "gensit/config.py:Config.path_modify"]}
{"id": "C67", "title": "Batched intensities equal one-by-one intensities", "statement": "Evaluating log_flow_matrix on a batch of iterations and sweeps gives, for each member, the intensity obtained from that member's own attraction vector and parameters.", "quantifier": "all batches, sweeps, dimensions and parameter values", "why_tests_cant": "every batch shape and every real input", "anchors": ["gensit/intensity_models/spatial_interaction_models/ProductionConstrained/__init__.py: log_flow_matrix", "gensit/intensity_models/spatial_interaction_models/TotallyConstrained/__init__.py: log_flow_matrix"]}
{"id": "C68", "title": "intensity_demand returns the column sums", "statement": "intensity_demand returns one number per destination, the sum over origins of the intensity, and the numbers add up to the total intensity.", "quantifier": "all dimensions and intensities", "why_tests_cant": "every table shape", "anchors": ["gensit/intensity_models/spatial_interaction_models/__init__.py: intensity_demand"]}
{"id": "C69", "title": "Potential and simulated dynamics describe the same model", "statement": "The gradient of the SDE potential used by the samplers is (2 eps/sigma^2)(kappa*attraction - delta - demand), so the noise-free simulated step descends exactly that potential, and fixed points of the simulation are its stationary points.", "quantifier": "all parameters with alpha nonzero, all costs, attractions and dimensions", "why_tests_cant": "a statement about derivatives at every real point", "anchors": ["gensit/intensity_models/spatial_interaction_models/ProductionConstrained/__init__.py: sde_pot", "gensit/intensity_models/spatial_interaction_models/TotallyConstrained/__init__.py: sde_pot", "gensit/physics_models/HarrisWilsonModel.py: run_single"]}
{"id": "C70", "title": "Hand-written gradients are the gradients", "statement": "The gradients returned together with the AIS prior potential and with the data likelihood are the partial derivatives of the returned values.", "quantifier": "all parameters and points", "why_tests_cant": "derivatives at every real point", "anchors": ["gensit/physics_models/HarrisWilsonModel.py: sde_ais_potential_and_jacobian, negative_destination_attraction_log_likelihood_and_gradient"]}
{"id": "C71", "title": "Reflected random-walk proposals are symmetric", "statement": "Inside the parameter box, the proposal that leads from one theta to another by a random-walk step reflected at the box boundary can be undone by a step with the same absolute coordinates, so with a centred normal step no Hastings correction is missing.", "quantifier": "all pairs of parameters in the box, all steps", "why_tests_cant": "real-valued parameters and steps; the missing correction would only bias long-run averages", "anchors": ["gensit/learning_models/HarrisWilsonModel_MCMC.py: theta_gibbs_step, theta_given_table_gibbs_step"]}
{"id": "C72", "title": "Cached potential belongs to the current sample", "statement": "At every point of a run the cached potential and gradient that the samplers pass from step to step are those of the current theta and the current log destination attractions.", "quantifier": "all interleavings and numbers of theta / attraction / table steps, all draws", "why_tests_cant": "depends on the whole history of accepted and rejected moves", "anchors": ["gensit/experiments.py: SIM_MCMC.run, JointTableSIM_MCMC.run", "gensit/learning_models/HarrisWilsonModel_MCMC.py: theta_gibbs_step, log_destination_attraction_gibbs_step"]}
{"id": "C73", "title": "Cached table likelihood belongs to the current sample", "statement": "In the joint sampler the table likelihood that the next step uses as the current value is the likelihood of the current table at the current (scaled) parameters and attractions.", "quantifier": "all interleavings of steps, all draws", "why_tests_cant": "depends on history; a stale value only biases acceptance", "anchors": ["gensit/experiments.py: JointTableSIM_MCMC.run", "gensit/learning_models/HarrisWilsonModel_MCMC.py: theta_given_table_gibbs_step, log_destination_attraction_given_table_gibbs_step"]}
{"id": "C74", "title": "Attraction updates weigh the data", "statement": "The Metropolis test of a log-destination-attraction update compares energies that include the data likelihood of the proposed and of the current attractions.", "quantifier": "all physics models, parameters, momenta and uniform draws", "why_tests_cant": "an acceptance rule for all real states", "anchors": ["gensit/learning_models/HarrisWilsonModel_MCMC.py: log_destination_attraction_gibbs_step"]}
{"id": "C75", "title": "Annealed importance weights", "statement": "The log weight of each annealing particle is the initial log weight plus the sum over temperatures of the temperature increment times the potential difference at the position reached so far; if the target is the prior shifted by a constant, the estimate of the log normalising-constant ratio is that constant for every draw.", "quantifier": "all potentials, gradients, temperature counts, step sizes and draws", "why_tests_cant": "all random histories of the annealer", "anchors": ["gensit/learning_models/HarrisWilsonModel_MCMC.py: annealed_importance_sampling_log_z"]}
{"id": "C76", "title": "Gradient of the table likelihood", "statement": "The gradient of the negative table log likelihood handed to the Hamiltonian step is the derivative of the negative table log likelihood handed to it.", "quantifier": "all tables, parameters and attractions", "why_tests_cant": "derivatives at every real point", "anchors": ["gensit/learning_models/HarrisWilsonModel_MCMC.py: negative_table_log_likelihood_gradient"]}
{"id": "C77", "title": "Stopping times have the law the debiasing weights assume", "statement": "Each generated stopping time is the first n >= 1 with (n+1)^-k <= u; for every positive draw it is found; it reaches i with probability exactly i^-k.", "quantifier": "all powers k > 0, all uniform draws", "why_tests_cant": "a law over all reals and termination for all draws", "anchors": ["gensit/utils/probability_utils.py: generate_stopping_times"]}
{"id": "C78", "title": "Truncated series is the debiased estimate of 1/z", "statement": "The signed value returned for N+1 log weights is Y0 + sum_{i=1..N} (Y_i - Y_{i-1}) i^k, with Y_i the reciprocal of the mean of the first i+1 weights; with equal weights it is exactly 1/z.", "quantifier": "all weight lists, lengths and powers", "why_tests_cant": "all weight vectors; the error only biases posterior samples", "anchors": ["gensit/utils/probability_utils.py: compute_truncated_infinite_series", "gensit/learning_models/HarrisWilsonModel_MCMC.py: unbiased_z_inverse"]}
{"id": "C79", "title": "Table likelihoods compare tables correctly", "statement": "For any two tables that share the margins a distribution conditions on, the difference of the returned log likelihoods is the log ratio of prod lambda^T/T!; for Fisher it does not change when rows or columns of the intensity are rescaled; the cross ratio used by the degree-higher proposal is that of the odds ratios.", "quantifier": "all tables, all intensities, all dimensions", "why_tests_cant": "all pairs of tables in an infinite family of supports", "anchors": ["gensit/utils/probability_utils.py: log_poisson_pmf_unnormalised, log_multinomial_pmf_unnormalised, log_product_multinomial_pmf_unnormalised, log_fishers_hypergeometric_pmf_unnormalised, log_odds_cross_ratio"]}
{"id": "C80", "title": "Table likelihoods compare parameters correctly", "statement": "For a fixed table the returned log likelihood is, up to a term that does not depend on the intensities, the log probability of that table among all tables with the margins the distribution conditions on. (The theta and attraction updates given a table rely on it.)", "quantifier": "all tables and intensities", "why_tests_cant": "sums over all tables with given margins", "anchors": ["gensit/utils/probability_utils.py: log_poisson_pmf_unnormalised, log_multinomial_pmf_unnormalised, log_product_multinomial_pmf_unnormalised, log_fishers_hypergeometric_pmf_unnormalised", "gensit/learning_models/HarrisWilsonModel_MCMC.py: negative_table_log_likelihood"]}
{"id": "C81", "title": "Both implementations of each table likelihood agree", "statement": "The xarray loss functions return minus the torch log likelihood of the same distribution, and the normalised version returns the unnormalised one plus the log multinomial coefficient.", "quantifier": "all tables and intensities", "why_tests_cant": "all tables and intensities", "anchors": ["gensit/utils/probability_utils.py: log_poisson_loss, log_multinomial_loss, log_product_multinomial_loss, log_fishers_hypergeometric_loss, log_multinomial_pmf_normalised"]}
{"id": "C82", "title": "Signed moments", "statement": "The signed mean commutes with affine maps, the signed variance ignores shifts and scales quadratically, both ignore a common factor of the signs and equal the ordinary mean and population variance when all signs agree.", "quantifier": "all samples and sign vectors with non-zero sum", "why_tests_cant": "all sample vectors", "anchors": ["gensit/utils/math_utils.py: signed_mean, signed_var"]}
{"id": "C83", "title": "Sorensen index", "statement": "Between tables of non-negative numbers the index is symmetric, lies in [0,1], is 1 exactly when they agree on the mask, and is undefined exactly when both vanish on the mask.", "quantifier": "all tables and masks", "why_tests_cant": "all tables and masks", "anchors": ["gensit/utils/math_utils.py: ssi"]}
{"id": "C84", "title": "Standardised root mean square error", "statement": "For every sample the value is sqrt(mean squared error)/(mean true flow) over the masked cells; it is zero exactly when the tables agree there.", "quantifier": "all numbers of samples, tables and masks", "why_tests_cant": "all sample counts and tables", "anchors": ["gensit/utils/math_utils.py: srmse"]}
{"id": "C85", "title": "Hyperparameters set in the configuration are used", "statement": "A hyperparameter of the learning model given in the configuration is the value used in training (unless an optuna trial suggests one), and the configuration is left as given.", "quantifier": "all tables of defaults, configurations and trials", "why_tests_cant": "all dictionaries", "anchors": ["gensit/learning_models/HarrisWilsonModel_NeuralNet.py: NeuralNet.update_hyperparameters", "gensit/learning_models/GraphAttentionNetwork.py: update_hyperparameters", "gensit/learning_models/XGB.py", "gensit/learning_models/GBRT.py", "gensit/learning_models/RandomForest.py"]}
{"id": "C86", "title": "Every training element contributes to a gradient step", "statement": "In an epoch the loss of every training element enters exactly one gradient step, whatever the batch size; a loss update adds the mean over the prediction samples.", "quantifier": "all data sets, numbers of loss functions and batch sizes", "why_tests_cant": "all batch sizes and data sizes", "anchors": ["gensit/experiments.py: Experiment.model_update_and_export", "gensit/learning_models/HarrisWilsonModel_NeuralNet.py: update_loss"]}
{"id": "C87", "title": "Numbers and strings are checked against their declaration", "statement": "A configuration value whose schema declares an integer (float) with a range, or a string with a list of allowed strings, is accepted by validation exactly when it is an integer (finite float) inside the closed range, respectively one of the allowed strings. With allow-nan the type is not guaranteed any more: exactly the missing values and every number of the range are accepted.", "quantifier": "all schemas of the described form and all configuration values", "why_tests_cant": "the set of accepted values is infinite and its boundary depends on the schema", "anchors": ["gensit/utils/config_data_structures.py", "gensit/utils/config_data_structures.py: Int.check", "gensit/utils/config_data_structures.py: Float.check", "gensit/utils/config_data_structures.py: Str.check", "gensit/utils/config_data_structures.py: check_type", "gensit/utils/config_data_structures.py: check_range", "gensit/utils/config_data_structures.py: check_scope"]}
{"id": "C88", "title": "Boolean settings accept only booleans", "statement": "A setting declared boolean is accepted only when it is true or false. (False of the code: every value is accepted, including the text 'false', which counts as true.)", "quantifier": "all configuration values", "why_tests_cant": "a claim about every value that could be written in a configuration file", "anchors": ["gensit/utils/config_data_structures.py", "gensit/utils/config_data_structures.py: Bool", "gensit/utils/config_data_structures.py: PrimitiveEntry.check"]}
{"id": "C89", "title": "File and directory settings", "statement": "A file (directory) setting is accepted only when it is a string naming an existing path if existence is demanded, and, for files, having the declared extension. (The existence part holds exactly; the extension is never enforced for the shipped schema.)", "quantifier": "all strings, all schemas, all states of the file system", "why_tests_cant": "depends on the file system and on all strings", "anchors": ["gensit/utils/config_data_structures.py", "gensit/utils/config_data_structures.py: check_path_exists", "gensit/utils/config_data_structures.py: check_extension", "gensit/utils/config_data_structures.py: File.check", "gensit/utils/config_data_structures.py: Directory.check"]}
{"id": "C90", "title": "Lists are checked element by element at every depth", "statement": "A setting declared as a list (of lists, to any depth) is accepted exactly when it is a list of an allowed length, with distinct elements if that is demanded, all of whose innermost elements are acceptable. (True of lists of primitives and of nested lists without constraints on the inner lists; shapes of tables in lists, values of dictionaries in lists and distinctness of custom lists are not checked.)", "quantifier": "all nesting depths, all lengths, all element values", "why_tests_cant": "depth and length are unbounded", "anchors": ["gensit/utils/config_data_structures.py", "gensit/utils/config_data_structures.py: List.check", "gensit/utils/config_data_structures.py: check_length", "gensit/utils/config_data_structures.py: check_uniqueness", "gensit/utils/config_data_structures.py: check_elements", "gensit/utils/config_data_structures.py: CustomList.check"]}
{"id": "C91", "title": "Validated values reach the program unchanged", "statement": "The value handed to the program for a setting in which nothing is missing is the value written in the file; missing elements of a list, and only they, are replaced by the declared default.", "quantifier": "all schemas, all values of any depth", "why_tests_cant": "ranges over arbitrarily nested values and schemas", "anchors": ["gensit/utils/config_data_structures.py", "gensit/utils/config_data_structures.py: value", "gensit/utils/misc_utils.py: is_null"]}
{"id": "C92", "title": "The parameter update is a Metropolis step that leaves the posterior invariant", "statement": "A parameter update accepts its proposal exactly when it lies inside the prior box and the logarithm of the uniform draw is below the difference of the log-posteriors, records 1 exactly then, and keeps the current value otherwise; and if the current value is distributed by the (unnormalised) posterior, so is the updated one, for every walk whose density does not change when either coordinate changes sign. (False for correlated walks: the reflected proposal is then not symmetric.)", "quantifier": "all potentials, partition functions, table likelihoods, walk densities, draws and test functions", "why_tests_cant": "a statement about a distribution over a continuum of states and draws", "anchors": ["gensit/learning_models/HarrisWilsonModel_MCMC.py", "gensit/learning_models/HarrisWilsonModel_MCMC.py: theta_gibbs_step", "gensit/learning_models/HarrisWilsonModel_MCMC.py: theta_given_table_gibbs_step"]}
{"id": "C93", "title": "A simulated step is an Euler-Maruyama step of the advertised equation", "statement": "One simulated step adds to the attraction its drift times dt and a Gaussian increment of standard deviation attraction times sigma times the square root of dt. (False of the code: the increment is smaller by the factor sqrt(2 pi).)", "quantifier": "all parameters, step lengths, flows, draws", "why_tests_cant": "ranges over all reals", "anchors": ["gensit/physics_models/HarrisWilsonModel.py", "gensit/physics_models/HarrisWilsonModel.py: run_single"]}
{"id": "C94", "title": "The degree-higher table step leaves the target law of tables invariant", "statement": "With both margins fixed, if the current table is distributed as Poisson counts with the given intensities conditioned on the margins and the fixed cells, then so is the table after one degree-higher step, whichever generated basis is used; the step never raises. (Holds when the odds ratios of all 2x2 rectangles lie within [1e-6, 1e6]; beyond that the code clamps them and the property fails.)", "quantifier": "all table sizes, margins, fixed cells, generated bases, intensities, test functions", "why_tests_cant": "a statement about a distribution over all tables of a fibre, for all intensities", "anchors": ["gensit/contingency_table/ContingencyTable_MCMC.py", "gensit/contingency_table/ContingencyTable_MCMC.py: degree_higher_proposal_2way_table_fishers_hypergeometric", "gensit/utils/probability_utils.py: log_odds_cross_ratio", "gensit/utils/misc_utils.py: safe_cast", "gensit/contingency_table/ContingencyTable_MCMC.py: table_gibbs_step"]}
{"id": "C95", "title": "The degree-one table step leaves the target law of tables invariant", "statement": "If the current table is distributed as Poisson counts with the given intensities conditioned on the constraints, so is the table after one degree-one Metropolis step. (False of the code: the factorials of the target are not accounted for; true for tables of zeros and ones.)", "quantifier": "all table sizes, constraints, generated bases, intensities, test functions", "why_tests_cant": "a statement about a distribution over all tables of a fibre and a continuum of draws", "anchors": ["gensit/contingency_table/ContingencyTable_MCMC.py", "gensit/contingency_table/ContingencyTable_MCMC.py: degree_one_proposal_2way_table", "gensit/contingency_table/ContingencyTable_MCMC.py: metropolis_log_acceptance_ratio_2way_table", "gensit/contingency_table/ContingencyTable_MCMC.py: log_target_measure_difference_2way_table", "gensit/contingency_table/ContingencyTable_MCMC.py: table_gibbs_step"]}
{"id": "C96", "title": "Rejection sampling returns a draw conditioned on the constraints", "statement": "The table returned by a rejection loop has the law of a single draw conditioned on meeting the constraints, and if an admissible table has positive probability the loop returns with probability one.", "quantifier": "all laws with finite support, all numbers of rounds, all constraints", "why_tests_cant": "a statement about infinite sequences of random draws", "anchors": ["gensit/contingency_table/ContingencyTable_MCMC.py", "gensit/contingency_table/ContingencyTable_MCMC.py: direct_sampling_proposal_2way_table", "gensit/contingency_table/ContingencyTable_MCMC.py: product_multinomial_sample_2way_table", "gensit/contingency_table/__init__.py: table_admissible"]}
{"id": "C97", "title": "Direct samples have the target law", "statement": "A table sampled directly has the law of Poisson counts with the given intensities conditioned on the constrained margins and the fixed cells. (True without constraints, for a constrained total with fixed cells, and for constrained row sums without fixed cells; false with both margins constrained, where the intensities are ignored.)", "quantifier": "all table sizes, intensities, totals, row sums, fixed cells, tables", "why_tests_cant": "an identity of distributions over all tables", "anchors": ["gensit/contingency_table/ContingencyTable_MCMC.py", "gensit/contingency_table/ContingencyTable_MCMC.py: poisson_sample_2way_table", "gensit/contingency_table/ContingencyTable_MCMC.py: multinomial_sample_2way_table", "gensit/contingency_table/ContingencyTable_MCMC.py: product_multinomial_sample_2way_table", "gensit/contingency_table/ContingencyTable_MCMC.py: direct_sampling_proposal_2way_table", "gensit/utils/probability_utils.py: sample_multinomial_row"]}
{"id": "C98", "title": "Validation accepts exactly the right configurations", "statement": "Validating a configuration against the schema succeeds only if every parameter of the parameter file that is given passes the check of its schema entry, no compulsory parameter is missing, and sweeps are given only for sweepable parameters and with a default; without coupled sweeps it succeeds exactly then.", "quantifier": "all parameter files of the shipped shape, schemas, settings, value checks", "why_tests_cant": "quantifies over all trees of settings and all schemas", "anchors": ["gensit/config.py", "data/inputs/configs/schemas/cfg_parameters.json", "gensit/config.py: Config.validate", "gensit/config.py: Config.path_get", "gensit/config.py: Config.has_sweep"]}
{"id": "C99", "title": "Validation changes only sweeps that are not active", "statement": "After an accepted validation every sweep is replaced by its default when sweeps are off or no range is given; every other value in the settings is as before, and whether sweeps are on is as the settings say.", "quantifier": "all parameter files, schemas, settings", "why_tests_cant": "a frame property over all positions of all settings trees", "anchors": ["gensit/config.py", "data/inputs/configs/schemas/cfg_parameters.json", "gensit/config.py: Config.validate", "gensit/config.py: Config.path_get", "gensit/config.py: Config.has_sweep"]}
{"id": "C100", "title": "Values used after validation have been checked", "statement": "Every value a parameter has after an accepted validation has passed the check of its schema entry. (True with sweeps off, and for sweeps with a range; false for sweeps without a range when sweeps are on: their default is used unchecked.)", "quantifier": "all parameter files, schemas, settings, positions", "why_tests_cant": "quantifies over all settings trees", "anchors": ["gensit/config.py", "data/inputs/configs/schemas/cfg_parameters.json", "gensit/config.py: Config.validate", "gensit/config.py: Config.path_get", "gensit/config.py: Config.has_sweep"]}
{"id": "C101", "title": "Validation registers every active sweep", "statement": "After an accepted validation the isolated sweeps registered are exactly the uncoupled sweeps with a range, each under its name. (Two sweeps of the same name, e.g. the swept files of `margins` and `cells_subset`, overwrite each other.)", "quantifier": "all parameter files, schemas, settings", "why_tests_cant": "quantifies over all settings trees and orders of parameters", "anchors": ["gensit/config.py", "data/inputs/configs/schemas/cfg_parameters.json", "gensit/config.py: Config.validate", "gensit/config.py: Config.path_get", "gensit/config.py: Config.has_sweep", "gensit/config.py: isolated_sweep_paths"]}
{"id": "C102", "title": "Validation reports keys it does not know", "statement": "A configuration with a key that neither the parameter file nor the schema knows is rejected. (False: acceptance depends on the known parameters only.) A sweep inside a list element is treated like any other (false: with sweeps off, or without a range, it raises).", "quantifier": "all parameter files, schemas, pairs of settings", "why_tests_cant": "compares all pairs of settings trees", "anchors": ["gensit/config.py", "data/inputs/configs/schemas/cfg_parameters.json", "gensit/config.py: Config.validate", "gensit/config.py: Config.path_get", "gensit/config.py: Config.has_sweep", "gensit/config.py: Config.path_set"]}
{"id": "C103", "title": "A failed check is reported as a failure", "statement": "If a value fails its check, validation ends in an exception or a non-zero exit status. (False: the program exits with status 0.)", "quantifier": "all parameter files, schemas, settings with one wrong value", "why_tests_cant": "quantifies over all settings trees", "anchors": ["gensit/config.py", "data/inputs/configs/schemas/cfg_parameters.json", "gensit/config.py: Config.validate", "gensit/config.py: Config.path_get", "gensit/config.py: Config.has_sweep", "gensit/config.py: sys.exit"]}
{"id": "C104", "title": "An experiment type removes its excluded sections and overrides its schema entries, nothing else", "statement": "Preparing the validation of an experiment removes from settings, schema and parameter file exactly what lies in the sections the experiment type excludes, gives every overridden schema entry its new value and changes nothing else; an override of an unknown entry raises. With the shipped files this succeeds for every experiment type and all settings. (An override through a list is silently not applied.)", "quantifier": "all experiment schemas, settings, schemas, parameter files, positions", "why_tests_cant": "a frame property over all positions of all trees", "anchors": ["gensit/config.py", "data/inputs/configs/schemas/cfg_schema_by_experiment.json", "gensit/config.py: Config.experiment_validate", "gensit/config.py: Config.path_delete", "gensit/config.py: Config.path_modify"]}
{"id": "C105", "title": "Excluded sections are neither required nor checked", "statement": "A configuration accepted for an experiment is right about every parameter outside the excluded sections; what the excluded sections hold, or whether they exist, does not change whether it is accepted. No or several experiments raise; an unknown type gets the general validation.", "quantifier": "all experiment schemas, schemas, parameter files, pairs of settings", "why_tests_cant": "compares all pairs of settings trees", "anchors": ["gensit/config.py", "data/inputs/configs/schemas/cfg_schema_by_experiment.json", "gensit/config.py: Config.experiment_validate", "gensit/config.py: Config.path_delete", "gensit/config.py: Config.path_modify", "gensit/config.py: Config.validate"]}
{"id": "C106", "title": "Command-line options override the configuration and nothing else changes", "statement": "A value given to an option of gensit create, run or optimise is stored at every place of the configuration that has the setting of that name (--n: N); settings not overwritten keep their value and no setting is created. (Violated: n_threads, n_workers, norm, logging_mode, device, store_progress, sparse_margins, sample and, for create, out_group and synthesis_method are overwritten even if their options are not given.)", "quantifier": "all commands, option values, configurations, positions in them", "why_tests_cant": "a frame property over all positions of all configuration trees", "anchors": ["gensit/main.py", "gensit/utils/misc_utils.py", "gensit/main.py: update_settings", "gensit/main.py: setup_experiments", "gensit/utils/misc_utils.py: deep_updates"]}
{"id": "C107", "title": "Exactly the requested experiments are run", "statement": "gensit run -et T1 -et T2 runs every experiment of the configuration whose type is requested, in order, and no other. (Violated: of several experiments of one type only the last is run.) Without a requested type nothing is run; an experiment without type raises.", "quantifier": "all lists of experiments and requested types", "why_tests_cant": "deletion by index while iterating and a dictionary keyed by type: all lists", "anchors": ["gensit/experiments.py", "gensit/experiments.py: ExperimentHandler"]}
{"id": "C108", "title": "Evaluation arguments are read as key and value", "statement": "--evaluation_kwargs \"key = value\" defines the key with that value for every key without = and every value (which may contain =), spaces around them not counting; without = the name stands for itself. The samples loaded are exactly the known data names among the keys, each once.", "quantifier": "all keys, values, amounts of spaces, lists of arguments", "why_tests_cant": "all strings", "anchors": ["gensit/utils/click_parsers.py", "gensit/main.py", "gensit/utils/click_parsers.py: evaluate_kwargs_callback", "gensit/main.py: update_settings"]}
{"id": "C109", "title": "Statistics on the command line are read as written", "statement": "--statistic METRIC STAT DIM with groups separated by &, statistics by | and dimensions by + is read back as the groups of statistics it was written for; different numbers of groups raise. (Violated: within a group surplus statistics are dropped silently, and repeating the option for a metric nests its groups instead of adding them.)", "quantifier": "all groups of statistics with any names free of separators", "why_tests_cant": "a round trip over all nested lists of names", "anchors": ["gensit/utils/click_parsers.py", "gensit/utils/click_parsers.py: unpack_statistics"]}
{"id": "C110", "title": "A data collection behaves like parallel lists of groups", "statement": "collection[i] gives the i-th group of every sample exactly when all samples have it and raises KeyError otherwise; len is the common number of groups or raises; assigning at i changes position i of the assigned samples only; pop removes what it returns; strip_data keeps what it is told to keep. (Violated: pop removes nothing, del always raises, a row read from a collection cannot be assigned, a failing assignment is not undone, iteration ends with KeyError or never, strip_data with both names and positions keeps every sample.)", "quantifier": "all collections, sample names, positions (also negative), assigned objects", "why_tests_cant": "quantifies over all collections and positions and over states left by exceptions", "anchors": ["gensit/outputs.py", "gensit/outputs.py: DataCollection.__getitem__", "gensit/outputs.py: DataCollection.__setitem__", "gensit/outputs.py: DataCollection.__len__", "gensit/outputs.py: Outputs.pop", "gensit/outputs.py: Outputs.strip_data"]}
{"id": "C111", "title": "Loading through the cache of collected samples gives what collecting would give", "statement": "Outputs.load stores the collected groups of every sample; a later load returns the stored groups of the samples that are there, collects the others, never changes a stored file unless the reload is forced, and is not affected by the order of the directory listing. (Violated: cached groups come back in reverse order, so that they no longer match samples collected afresh; settings of the later load are ignored; after an interrupted load samples are silently incomplete, or cannot be loaded if a file was cut.)", "quantifier": "all collections of samples, directory contents and orders of listing, settings, crash points of the writing load", "why_tests_cant": "crash points, histories of loads and all directory contents", "anchors": ["gensit/outputs.py", "gensit/utils/misc_utils.py", "gensit/outputs.py: Outputs.load", "gensit/outputs.py: read_data_collection", "gensit/outputs.py: write_data_collection", "gensit/utils/misc_utils.py: read_xr_data", "gensit/utils/misc_utils.py: write_xr_data", "gensit/outputs.py: DataCollection.__init__"]}
{"id": "C112", "title": "Summaries cover every group of every folder exactly once", "statement": "Collecting metadata looks at each group of a collection exactly once and lists the resulting rows under the folder they come from, in order. (Violated with pop: every row is computed from the first group.)", "quantifier": "all collections, numbers of groups, lists of folders and rows", "why_tests_cant": "an aggregation over unboundedly many groups and folders", "anchors": ["gensit/outputs.py", "gensit/outputs.py: OutputSummary.collect_metadata", "gensit/outputs.py: get_experiment_metadata_sequentially", "gensit/outputs.py: get_experiment_metadata_concurrently", "gensit/outputs.py: Outputs.pop"]}
{"id": "C113", "title": "Input data that are read agree with each other", "statement": "Constructing Inputs from files succeeds only if every configured training file exists, holds no negative number where none is allowed, and all files agree on the numbers of origins, destinations and time steps; the object then holds exactly the content of the files and these numbers as its dimensions. (Violated: dimensions declared in the configuration are not compared with the files but overwritten; a destination demand given as a vector is refused.)", "quantifier": "all configurations, file systems and file contents", "why_tests_cant": "quantifies over all combinations of files and shapes", "anchors": ["gensit/inputs.py", "gensit/static/global_variables.py", "gensit/inputs.py: Inputs.read_data", "gensit/inputs.py: Inputs.validate_dims", "gensit/static/global_variables.py: INPUT_SCHEMA"]}
{"id": "C114", "title": "Parameters derived from the data", "statement": "Parameters that are not learned come from the Harris-Wilson section, else from the spatial interaction section, else from the defaults; delta and kappa that are not given are derived such that the total size of the destinations is in balance with the total flow, kappa * sum(W) = F + delta * N. (Violated: with only kappa given the balance fails; with destinations of equal size both are a division by zero; delta and kappa are set even if they are to be learned.)", "quantifier": "all data sets and parameter sections", "why_tests_cant": "an algebraic identity over all data", "anchors": ["gensit/inputs.py", "gensit/static/global_variables.py", "gensit/inputs.py: Inputs.update_delta_and_kappa", "gensit/inputs.py: Inputs.read_data", "gensit/static/global_variables.py: PARAMETER_DEFAULTS"]}
{"id": "C115", "title": "Masks of cells mark exactly the listed cells", "statement": "For each list of cells (train, validation, test, ...) the mask has the shape of the table and is true exactly at the listed cells, all of which lie in the table; without a list of test cells every cell is a test cell; another list whose file does not exist marks nothing. (Violated if the configuration declares the dimensions in another order: the mask is transposed.)", "quantifier": "all tables, lists of cells and declared dimensions", "why_tests_cant": "quantifies over all lists of cells", "anchors": ["gensit/inputs.py", "gensit/utils/misc_utils.py", "gensit/inputs.py: Inputs.create_cell_masks", "gensit/utils/misc_utils.py: create_mask", "gensit/utils/misc_utils.py: unpack_dims"]}
{"id": "C116", "title": "Given margins and cells are imported", "statement": "Margins given by file or by value and single cells given by file are imported and checked. (Violated: an existing margin file always raises; a margin given by value is not checked; single cells are never used — an existing file raises, or is ignored if there is a table.)", "quantifier": "all lists of margins, files and values", "why_tests_cant": "quantifies over all configurations and files", "anchors": ["gensit/inputs.py", "gensit/inputs.py: Inputs.import_margins", "gensit/inputs.py: Inputs.import_cells_subset"]}
{"id": "C117", "title": "Moving the data to the device and back loses nothing", "statement": "pass_to_device puts every input on the configured device with its declared shape and unchanged entries, is idempotent, and receive_from_device restores NumPy arrays with the same entries. (Violated: destination demand, adjacency matrix and region features are not restored, after which the data cannot be moved again; region features are not moved to the device; origin attractions with several time steps are refused.)", "quantifier": "all states of the data, devices and shapes", "why_tests_cant": "histories of conversions over all data", "anchors": ["gensit/inputs.py", "gensit/inputs.py: Inputs.pass_to_device", "gensit/inputs.py: Inputs.receive_from_device"]}
{"id": "C118", "title": "A copy holds exactly the requested data", "statement": "copy(datasets) holds, of the known inputs, exactly those requested that exist, unchanged. (Violated for an empty request, which copies everything.)", "quantifier": "all states of the data and requests", "why_tests_cant": "quantifies over all requests", "anchors": ["gensit/inputs.py", "gensit/inputs.py: Inputs.copy"]}
{"id": "C119", "title": "Labelled arrays carry the same data with coordinates 1..n", "statement": "cast_to_xarray keeps all entries and labels each axis with 1..n; it succeeds if the shapes agree with the dimensions; cast_from_xarray restores the entries; the order in which data sets are converted does not matter. (Violated: converting back rounds every entry towards zero; without naming data sets it raises unless all five masks exist.)", "quantifier": "all states of the data and requests, all orders of iteration", "why_tests_cant": "arbitrary iteration order of sets, all data", "anchors": ["gensit/inputs.py", "gensit/inputs.py: Inputs.cast_to_xarray", "gensit/inputs.py: Inputs.cast_from_xarray"]}
{"id": "C120", "title": "Synthetic data are what the configuration asks for", "statement": "Generated demands and sizes are shares summing to one; the cost matrix has entries in [0,1] with maximum one and is symmetric if square, total costs are its normalised row sums; the stored series has the declared dimensions and is the mean over the runs, or the optimum of least potential; the table has the requested total; the name of the data set gives its dimensions. (Violated: the uniform distribution always raises; the optimum is cut to as many destinations as there are time steps; more than one time step raises; the name depends on the last entry of the configuration.)", "quantifier": "all random draws, trajectories, optima, dimensions and orders of the configuration", "why_tests_cant": "quantifies over all outcomes of the random generator", "anchors": ["gensit/inputs.py", "gensit/utils/probability_utils.py", "gensit/inputs.py: Inputs.generate_synthetic_data", "gensit/inputs.py: sde_solver_in_sequence", "gensit/inputs.py: sde_potential_in_sequence", "gensit/utils/probability_utils.py: random_vector"]}
{"id": "C121", "title": "The R-squared grid search reports its best grid point", "statement": "RSquared_Analysis reports as fitted alpha and beta the grid point at which R-squared is largest, R-squared there, and the prediction made there; alpha and beta are the parameters meant, in whichever order they are declared. (Violated: if no R-squared is positive the stored prediction is a constant fallback; one failed optimisation is reported as the best point with R-squared NaN; the solver method evaluates beta but reports beta*bmax; to_learn must start with alpha, beta; declaring beta first in grid_ranges transposes the grid.)", "quantifier": "all grids, data, models (predictions as a function of the parameters) and failing evaluations", "why_tests_cant": "quantifies over all models and grids", "anchors": ["gensit/experiments.py", "gensit/experiments.py: RSquared_Analysis.run", "gensit/experiments.py: r2"]}
{"id": "C122", "title": "The log-target grid search reports its best grid point", "statement": "LogTarget_Analysis reports the grid point of largest log target among the evaluations that succeed, with that value; it succeeds exactly if one evaluation does; the fitted beta means the same as in RSquared_Analysis. (Violated: fitted_beta and fitted_scaled_beta are swapped relative to RSquared_Analysis.)", "quantifier": "all grids and targets", "why_tests_cant": "quantifies over all targets and grids", "anchors": ["gensit/experiments.py", "gensit/experiments.py: LogTarget_Analysis.run"]}
{"id": "C123", "title": "A simulated trajectory is the Euler scheme, step by step", "statement": "run with n iterations returns n+1 states, each the Euler step of the Harris-Wilson equation from the previous one with the intensity there and its own draws; without series it returns the last of them; runs can be continued; zero is absorbing; noiseless fixed points are the equilibria; parameters to be learned are taken from the free parameters. (Violated: run does not hand its free parameters to the steps, so learned kappa, delta, epsilon or sigma raise.)", "quantifier": "all initial states, draws, parameters, numbers of steps", "why_tests_cant": "unbounded number of steps and all draws", "anchors": ["gensit/physics_models/HarrisWilsonModel.py", "gensit/physics_models/HarrisWilsonModel.py: HarrisWilson.run", "gensit/physics_models/HarrisWilsonModel.py: HarrisWilson.run_single"]}
{"id": "C124", "title": "The summary table holds each operation's value for each setting", "statement": "For sweep outputs the summary has one row per sweep setting for which some operation has a value, and in it exactly the value of each operation for that setting under the operation's name; for outputs without a sweep it is one row with every value. Keyword arguments that name raw data are that data, others use their first definition that works. (Violated: a repeated name is given the value of the previous operation; a labelled value computed before the first per-setting one is lost, a plain one adds a row belonging to no setting; an operation named like a sweep key collapses rows; without a sweep only the values from the last plain one on are kept.)", "quantifier": "all expressions, evaluation functions, results and sweeps", "why_tests_cant": "quantifies over all lists of operations and all evaluation functions", "anchors": ["gensit/outputs.py", "gensit/outputs.py: OutputSummary.evaluate_expressions", "gensit/outputs.py: OutputSummary.get_folder_outputs"]}
{"id": "C125", "title": "Summary records carry the metadata asked for", "statement": "Each row becomes one record with its folder, the value of every metadata key the configuration has, and the row's own values; the summary of all folders holds the records of all their members, in order, none lost and none added. (Violated: a swept metadata key raises KeyError; no expressions, or all failing, abort; one failing member or empty folder aborts the summary of all folders.)", "quantifier": "all configurations, metadata keys, rows, folders", "why_tests_cant": "quantifies over all configurations and collections", "anchors": ["gensit/outputs.py", "gensit/outputs.py: OutputSummary.get_experiment_metadata", "gensit/outputs.py: OutputSummary.collect_metadata"]}
{"id": "C126", "title": "The folders summarised are those asked for, in order of time", "statement": "Given directories are used if they exist, in the given order; otherwise exactly the output folders whose path contains data set, group, type, title and date are found, in order of time, independent of the order in which directories are listed. (Violated: the star after the date repeats only its last character, so other dates match; any exclusion raises; without a data set nothing is found.)", "quantifier": "all directory trees, data sets, groups, types, titles, dates", "why_tests_cant": "quantifies over all directory trees and path texts", "anchors": ["gensit/outputs.py", "gensit/outputs.py: OutputSummary.find_matching_output_folders", "gensit/utils/misc_utils.py", "gensit/utils/misc_utils.py: get_all_subdirectories"]}
{"id": "C127", "title": "Summaries of different requests are kept apart", "statement": "A summary is written to a file determined by the request, changes no other file, and summaries of different requests are kept in different files. (Violated: all single dates become multiple_dates, so summaries for different dates replace each other; so do requests for several directories and requests for different groups.)", "quantifier": "all requests and file contents", "why_tests_cant": "quantifies over all pairs of requests", "anchors": ["gensit/outputs.py", "gensit/outputs.py: OutputSummary.write_metadata_summaries"]}
{"id": "C128", "title": "Reading a sample gives the data it names, and the intensity is that of the experiment", "statement": "Inputs are read from the inputs, validation data from the inputs or else from their file, everything else from the stored outputs when there is exactly one collection of it; a missing sample is reported as missing. The intensity read from the stored parameters and attractions is, draw by draw, the gravity model with these, and equals the intensity that the experiment used. (Violated: beta is multiplied by bmax on reading, but the joint table sampler and the neural network experiments use it unscaled; neural network experiments store the attractions after the step of the dynamics; a missing parameter ends the program.)", "quantifier": "all stored outputs, inputs, numbers of draws and regions, bmax", "why_tests_cant": "quantifies over all stored real-valued arrays", "anchors": ["gensit/outputs.py", "gensit/outputs.py: Outputs.get_sample", "gensit/experiments.py"]}
{"id": "C129", "title": "What an experiment declares is stored, and what is stored can be loaded", "statement": "Every output declared by an experiment is given a dataset, filled during the run, and found again by name when outputs are loaded; learned parameters are stored under their names. (Violated: a missing comma makes SIM_MCMC lose compute_time and theta_acc; log_target is never written; learning epsilon or bmax fails when datasets are created; the intensity of a comparison experiment whose configuration has a spatial interaction model is not loaded.)", "quantifier": "all experiments, learned parameters, losses, requested names, runs", "why_tests_cant": "quantifies over all requests and all runs", "anchors": ["gensit/static/global_variables.py", "gensit/static/global_variables.py: EXPERIMENT_OUTPUT_NAMES", "gensit/experiments.py", "gensit/experiments.py: Experiment.initialise_data_structures", "gensit/outputs.py", "gensit/main.py: update_settings"]}
{"id": "C130", "title": "Every stored dataset can be loaded with its own cells and coordinates", "statement": "Loading the outputs of a run gives every requested dataset with the cells stored, along its dimensions, where the coordinate of a row is the iteration it was stored in, and the swept settings as further coordinates. (Violated: the extents are shared by all datasets read together, so datasets with different numbers of rows, e.g. an empty log_target, cannot be loaded together; rows are numbered from one whatever the schedule; sweeps over settings without a declared coordinate type fail.)", "quantifier": "all stored files, requests, runs, schedules and sweeps", "why_tests_cant": "quantifies over all files and all runs that wrote them", "anchors": ["gensit/outputs.py", "gensit/outputs.py: Outputs.load_h5_data", "gensit/static/global_variables.py", "gensit/static/global_variables.py: COORDINATES_DTYPES", "gensit/experiments.py", "gensit/experiments.py: Experiment.write_data"]}
{"id": "C131", "title": "Stacking swept dimensions loses nothing", "statement": "Stacking a sample puts iteration and seed first, then the dimensions of its schema, then one dimension for all combinations of the swept settings; every value is found at the place of its combination, whose coordinates are those settings, and different combinations have different places. It fails exactly if the dimensions are not those of the schema.", "quantifier": "all samples, dimensions, coordinates and values", "why_tests_cant": "quantifies over all arrays of any shape", "anchors": ["gensit/outputs.py", "gensit/outputs.py: Outputs.stack_sweep_dims"]}
{"id": "C132", "title": "The objects an expression mentions are built before it is evaluated", "statement": "Every object mentioned in an expression to be evaluated is found and, given configuration and inputs, built; nothing else changes. (Violated: a mention not directly followed by a dot is missed together with the next; the physics model needs an intensity model that is not required; the learning model can never be built and the attempt removes the loss from the configuration.)", "quantifier": "all expressions, states of the outputs object", "why_tests_cant": "quantifies over all strings and states", "anchors": ["gensit/outputs.py", "gensit/outputs.py: Outputs.instantiate_object_from_expression", "gensit/outputs.py: Outputs.check_object_availability"]}
{"id": "C133", "title": "Selecting samples by coordinate value keeps exactly what satisfies the conditions", "statement": "Of the samples loaded, those runs are kept whose settings satisfy every condition asked for; along coordinates exactly the values satisfying the condition remain, with their values. (Violated: conditions are ignored for outputs without sweeps, for settings that are not sweepable and for samples without the coordinate; conditions on two coordinates make values missing; without the setting for index slices every sample is dropped.)", "quantifier": "all samples, conditions, sweeps and schemas", "why_tests_cant": "quantifies over all arrays and predicates", "anchors": ["gensit/outputs.py", "gensit/outputs.py: Outputs.create_slicing_conditions", "gensit/outputs.py: Outputs.slice_coordinates", "gensit/outputs.py: Outputs.slice_coordinates_by_value"]}
{"id": "C134", "title": "Comparison experiments store the table at training cells and the prediction at evaluation cells", "statement": "A comparison experiment (XGBoost, random forest, gradient boosting) stores in every iteration the ground truth at the training cells, the prediction of that iteration from the features of origin and destination and the cost at the evaluation cells, and missing elsewhere; counts of cells that are not training cells do not influence it.", "quantifier": "all dimensions, features, cost matrices, tables, disjoint sets of training and evaluation cells, learning models and numbers of iterations", "why_tests_cant": "every table, mask and learning model; independence of held-out counts quantifies over pairs of runs", "anchors": ["gensit/experiments.py: XGBoost_Comparison.run, RandomForest_Comparison.run, GBRT_Comparison.run", "gensit/utils/misc_utils.py: populate_array"]}
{"id": "C135", "title": "Iterations of ensembles", "statement": "The samples stored by the random forest and gradient boosting experiments are predictions of the ensemble: their mean is the prediction of the forest; the t-th sample of the boosted trees is the boosted prediction after t trees.", "quantifier": "all lists of trees, initial predictions, learning rates and cells", "why_tests_cant": "all ensembles", "anchors": ["gensit/experiments.py: XGBoost_Comparison.run, RandomForest_Comparison.run, GBRT_Comparison.run", "gensit/learning_models/RandomForest.py: RF_Model.predict_single", "gensit/learning_models/GBRT.py: GBRT_Model.predict_single"]}
{"id": "C136", "title": "Loss of the graph attention network", "statement": "The loss is smallest if the network predicts the (square roots of the) trips of the batch and the in- and outflows of its regions; it uses no count of a cell outside the batch.", "quantifier": "all batches, predictions, tables and weights", "why_tests_cant": "minimality quantifies over all predictions", "anchors": ["gensit/learning_models/GraphAttentionNetwork.py: GAT_Model.get_loss, GAT_Model.MSE", "gensit/experiments.py: GraphAttentionNetwork_Comparison.run"]}
{"id": "C137", "title": "Predictions of the graph attention network", "statement": "Adjacent regions are linked; the embedding of a region is the positive part of its own image plus an attention-weighted mean of the images of its senders (positive weights of sum one); predictions are not negative, do not depend on the order of the regions and depend only on features of regions within as many steps as there are layers.", "quantifier": "all graphs, features, parameters, numbers of layers and renamings of regions", "why_tests_cant": "all graphs and parameters; invariance quantifies over all permutations", "anchors": ["gensit/learning_models/GraphAttentionNetwork.py: GATLayer, GATInputLayer, GAT.forward, GAT_Model.predict", "gensit/utils/misc_utils.py: build_graph_from_matrix"]}
{"id": "C138", "title": "An epoch of the graph attention network", "statement": "An epoch uses every training row exactly once, in batches of the configured size (the last may be smaller), and negative samples can be requested.", "quantifier": "all training sets, shuffles, batch sizes and sampling rates", "why_tests_cant": "all sizes and shuffles", "anchors": ["gensit/learning_models/GraphAttentionNetwork.py: GAT_Model.generate_mini_batches, GAT_Model.negative_sampling, GAT_Model.train_single"]}
{"id": "C139", "title": "Scaling of region features", "statement": "Features are scaled onto [-1, 1] (XGBoost) or to mean zero and variance one (graph attention network) by an increasing map, independently of the unit of measurement, and finite features stay finite.", "quantifier": "all columns of features", "why_tests_cant": "all columns", "anchors": ["gensit/experiments.py: XGBoost_Comparison.run, GraphAttentionNetwork_Comparison.run"]}
{"id": "C140", "title": "Discovery of the swept parameters", "statement": "Loading a configuration finds exactly the parameters that have a sweep with a range: each uncoupled one as an isolated sweep at its path, each coupled one together with its target at theirs.", "quantifier": "all configurations (trees of dictionaries and lists of any size)", "why_tests_cant": "every configuration tree, any nesting and any number of sweeps", "anchors": ["gensit/config.py: Config.find_sweep_key_paths, Config.sweep_param_names", "gensit/static/global_variables.py: deep_walk"]}
{"id": "C141", "title": "A figure shows every collected record with its own values", "statement": "The data of a figure contain, for every variable, the value of every record of every folder, in the order of the records, so that values at the same position belong to the same record.", "quantifier": "all folders, records and settings extracted from them", "why_tests_cant": "any number of folders and records, any sets of keys", "anchors": ["gensit/plot.py: Plot.data_plot, Plot.merge_plot_settings"]}
{"id": "C142", "title": "Stacking order of records", "statement": "With an ordering of variables and directions, every record gets its own layer and records are stacked by the values of the ordering variables, the first variable taking precedence.", "quantifier": "all lists of records and ordering values", "why_tests_cant": "any number of records and ordering variables", "anchors": ["gensit/plot.py: Plot.merge_plot_settings, Plot.extract_plot_settings"]}
{"id": "C143", "title": "Subplots by group", "statement": "Records are drawn in the same row (column) of subplots exactly when they belong to the same group, and the figure is completed.", "quantifier": "all lists of groups of the records in both directions", "why_tests_cant": "all sequences of groups", "anchors": ["gensit/plot.py: Plot.map_groups_to_axes, Plot.get_discrete_ticks, Plot.plot_simple"]}
{"id": "C144", "title": "Axis limits", "statement": "Given limits are kept; limits that are not given are the smallest and largest value drawn, whatever the order of the records and even if some values are missing.", "quantifier": "all given limits and all sequences of data of the records of a subplot", "why_tests_cant": "all data; the limits accumulate over any number of records", "anchors": ["gensit/plot.py: Plot.get_axes_limits, Plot.plot_simple"]}
{"id": "C145", "title": "Discrete axes", "statement": "On a discrete axis every record is drawn at a tick with its own label, and records with different entries are drawn at different positions.", "quantifier": "all lists of major and minor entries and all tick locations", "why_tests_cant": "all numbers of entries and all starts and steps", "anchors": ["gensit/plot.py: Plot.get_discrete_ticks", "gensit/utils/misc_utils.py: hash_major_minor_var"]}
{"id": "C146", "title": "Parameters used by the physics model", "statement": "The physics model uses, for every parameter that is not learned, the value of the configuration, or else the default; in a hyperparameter trial the suggested values take precedence; learned parameters have no fixed value.", "quantifier": "all configurations (trees), all sets of learned parameters, all trials", "why_tests_cant": "every configuration tree and every combination of learned, given and suggested parameters", "anchors": ["gensit/physics_models/HarrisWilsonModel.py: HarrisWilson.__init__, HarrisWilson.update_hyperparameters", "gensit/inputs.py: Inputs.read_data (true parameters)", "gensit/experiments.py: training loops (dt)"]}
{"id": "C147", "title": "The settings record the parameters used", "statement": "After the physics model is built, the settings (which are written to the metadata) hold the value it uses for each fixed parameter, and no other setting is changed.", "quantifier": "all configurations, sets of learned parameters and trials", "why_tests_cant": "every configuration tree; frame condition over all paths", "anchors": ["gensit/physics_models/HarrisWilsonModel.py: HarrisWilson.__init__, HarrisWilson.update_hyperparameters", "gensit/config.py: Config.path_find, Config.path_set"]}
{"id": "C148", "title": "Every run has its own folder and keeps its data", "statement": "The output folder of a run identifies its type, title, noise level and start; runs never share a folder, so the data file of each run holds exactly the rows that run wrote, whatever other runs do before, after or at the same time.", "quantifier": "all settings, titles, directories, start times and all interleavings and crash points of any number of runs", "why_tests_cant": "every history of runs", "anchors": ["gensit/outputs.py: Outputs.__init__, Outputs.update_experiment_directory_id, Outputs.open_output_file", "gensit/experiments.py: Experiment.__init__"]}
{"id": "C149", "title": "Folders are read in the order in which their runs were started", "statement": "The time by which output folders are sorted is the start time of the run that made the folder, for every folder the program makes.", "quantifier": "all titles, data sets, directories and start times", "why_tests_cant": "every text before the time stamp", "anchors": ["gensit/outputs.py: OutputSummary.find_matching_output_folders, Outputs.update_experiment_directory_id"]}
{"id": "C150", "title": "The one-tailed tests are Welch's test in the stated direction", "statement": "For two samples (at least two observations each, not both constant) and a level between 0 and 1 the reported p-value is the probability that Student's t with the Welch-Satterthwaite degrees of freedom is at most the reported statistic, and the null hypothesis is rejected exactly if it is below the level; at levels up to one half only if the first mean is smaller. Exchanging the samples gives the complementary p-value, the unit of measurement does not matter, invalid input is refused, and the function for summaries returns the same as the function for samples.", "quantifier": "all samples, levels, shifts and scales, every symmetric monotone distribution function", "why_tests_cant": "every pair of samples", "anchors": ["gensit/utils/math_utils.py: perform_one_tailed_ttest, perform_one_tailed_ttest_using_summaries"]}
{"id": "C151", "title": "The table chain converges to its target law", "statement": "With both margins constrained and degree-higher proposals, the law of the table after k steps converges, from every admissible initial table, to the target law (independent Poisson counts conditioned on margins and fixed cells); so do averages over the samples.", "quantifier": "all dimensions, intensities (odds ratios within the range of the code), generated bases, initial tables, test functions", "why_tests_cant": "a limit over the number of steps and all chains", "anchors": ["gensit/contingency_table/ContingencyTable_MCMC.py: degree_higher_proposal_2way_table_fishers_hypergeometric, table_gibbs_step", "gensit/contingency_table/MarkovBasis.py: MarkovBasis.generate"]}
{"id": "C152", "title": "The annealed importance sampling estimate is unbiased", "statement": "The mean, over every random draw, of exp(annealed_importance_sampling_log_z) is the ratio of the normalising constants of the target and of the prior, for every number of particles, temperatures and leapfrog steps, every step size and every target; each annealing step leaves the law of its temperature invariant.", "quantifier": "all parameters of the model, numbers of destinations, particles, temperatures, leapfrog steps, step sizes, potentials and gradients; the laws of all draws", "why_tests_cant": "an expectation over a continuous law of all random draws", "anchors": ["gensit/learning_models/HarrisWilsonModel_MCMC.py: annealed_importance_sampling_log_z", "gensit/physics_models/HarrisWilsonModel.py: sde_ais_potential_and_jacobian"]}
{"id": "C153", "title": "The saddle-point value of 1/z is what it claims to be", "statement": "biased_z_inverse starts one optimisation per destination, takes the best result (first on ties) and returns the potential there plus half the log-determinant of the Hessian with sign 1; with the constant the grid search subtracts, the log target is the log density of the data for every quadratic potential whose minimum the optimiser finds, so parameter values are compared by the ratio of their normalising constants.", "quantifier": "all numbers of destinations, parameters, potentials, Hessians, optimisers and sound Cholesky routines", "why_tests_cant": "an integral over all of R^J against a value obtained by optimisation", "anchors": ["gensit/learning_models/HarrisWilsonModel_MCMC.py: biased_z_inverse", "gensit/experiments.py: RSquaredAnalysis/LogTargetAnalysis", "gensit/utils/math_utils.py: torch_optimize"]}
{"id": "C154", "title": "The stopping times of a run are its own and reproducible", "statement": "A run gets exactly as many stopping times as it asked for, drawn with its own seed and power; a later run with the same settings gets the same ones; every lookup is within the loaded list and no two estimates share a stopping time.", "quantifier": "all generators, settings, histories of the stopping-times folder, numbers of iterations and parameter steps", "why_tests_cant": "it depends on the history of earlier runs sharing the folder", "anchors": ["gensit/learning_models/HarrisWilsonModel_MCMC.py: load_stopping_times, import_stopping_times, export_stopping_times, unbiased_z_inverse", "gensit/experiments.py: SIM_MCMC.run, JointTableSIM_MCMC.run"]}
{"id": "C155", "title": "The randomly truncated estimate of 1/z is unbiased and independent of the workers", "statement": "The mean over the stopping time of the value unbiased_z_inverse returns is one over the limit of the average weight, for every power; it is obtained with any number of workers and does not depend on the order in which they finish.", "quantifier": "all weight sequences, powers, stopping times, numbers of workers and completion orders", "why_tests_cant": "a mean over an unbounded law of stopping times and over all schedules of a process pool", "anchors": ["gensit/learning_models/HarrisWilsonModel_MCMC.py: unbiased_z_inverse, annealed_importance_sampling_log_z_parallel", "gensit/utils/probability_utils.py: compute_truncated_infinite_series, generate_stopping_times"]}
{"id": "C156", "title": "Sign-weighted averages of the parameter chain are posterior averages", "statement": "With a random, possibly negative estimate of 1/z carried along with the parameters, the parameter update leaves the joint law of parameters, carried estimate and sign (density |estimate| exp(-V), times the law of the draws) invariant, also given a table; and averages weighted by the recorded signs are averages under the posterior exp(-V)/z whenever the signed estimate has mean proportional to 1/z.", "quantifier": "all potentials, table likelihoods, laws of the estimate, symmetric walk densities, states and test functions", "why_tests_cant": "a statement about laws on a continuum of states including the randomness behind a cached estimate", "anchors": ["gensit/learning_models/HarrisWilsonModel_MCMC.py: theta_gibbs_step, theta_given_table_gibbs_step, unbiased_z_inverse", "gensit/experiments.py: SIM_MCMC.run, JointTableSIM_MCMC.run"]}
{"id": "C157", "title": "The update of the attractions leaves their posterior invariant", "statement": "If the log destination attractions are distributed as their posterior (Boltzmann weight of the potential times the Gaussian likelihood of the observed attractions, times the table likelihood in the joint sampler), they still are after one Hamiltonian update, for every potential, step size and number of leapfrog steps. (Violated: the likelihood is evaluated at the previous sample only.)", "quantifier": "all potentials, observations, noise variances, step sizes, numbers of steps and test functions, over the laws of momentum and uniform", "why_tests_cant": "a statement about a law on a continuum of states; no finite sample of states shows it", "anchors": ["gensit/learning_models/HarrisWilsonModel_MCMC.py: log_destination_attraction_gibbs_step, log_destination_attraction_given_table_gibbs_step, annealed_importance_sampling_log_z"]}
{"id": "C158", "title": "Joint sampling leaves the joint posterior of parameters and table invariant", "statement": "Started from the joint posterior of parameters and table, any number of iterations of the joint sampler (parameter steps given the table, then table steps given the intensity of the parameters) leaves that joint law invariant. (Holds with scaling factor bmax = 1, no attraction steps and table steps that leave the table's law given the parameters invariant, in particular for totally and row constrained tables; violated when bmax is not 1, because tables are drawn at the unscaled parameters.)", "quantifier": "all potentials, intensities, numbers of steps and iterations, walk densities free of signs, test functions", "why_tests_cant": "a statement about the law of a chain on a mixed space after any number of iterations", "anchors": ["gensit/experiments.py: JointTableSIM_MCMC.run", "gensit/learning_models/HarrisWilsonModel_MCMC.py: theta_given_table_gibbs_step, negative_table_log_likelihood_expanded"]}
{"id": "C159", "title": "Learned parameters are used under their own names", "statement": "Whatever subset and order of parameters training.to_learn lists, the values learned for a parameter are used, scaled and written under that parameter's name: alpha as alpha, beta (times bmax) as beta. (Violated by the samplers and the grid search, which take the first two learned values as alpha and beta; training of the network and the written data are right for every order.)", "quantifier": "all lists of names, samples, walks, fixed parameters and scaling factors", "why_tests_cant": "every order, subset and repetition of names times every value", "anchors": ["gensit/physics_models/HarrisWilsonModel.py: __init__, run_single", "gensit/learning_models/HarrisWilsonModel_MCMC.py: theta_gibbs_step, theta_given_table_gibbs_step", "gensit/experiments.py: SIM_MCMC.run, JointTableSIM_MCMC.run, RSquared_Analysis, SIM_NN.run, write_data"]}
{"id": "C160", "title": "A training loss is the mean over predicted samples", "statement": "Every configured loss is the mean, over the samples predicted in the step, of the configured function between the sample (or its normalised cost by origin) and its observation; each loss is counted once, in any order, with the configured variance however often it is evaluated; missing data, unknown names and empty predictions are refused. (Violated by the total_intensity_distance losses of the joint experiment, where the rows of the one intensity are taken for samples.)", "quantifier": "all losses, sample lists, observations, orders of evaluation and numbers of evaluations", "why_tests_cant": "all values and numbers of samples, every order of a set", "anchors": ["gensit/learning_models/HarrisWilsonModel_NeuralNet.py: update_loss", "gensit/static/global_variables.py: LOSS_DATA_REQUIREMENTS, LOSS_KWARG_OPERATIONS", "gensit/experiments.py: JointTableSIM_NN.run"]}
{"id": "C161", "title": "Every configured loss drives the network", "statement": "In joint training every configured loss contributes to what the network learns: if the expected loss changes with the weights, an epoch with that loss can change the weights. (Violated by the total_table_distance losses: tables are drawn, not computed, so these losses have no gradient; training with them is training without them, and with them alone nothing is learned.)", "quantifier": "all networks, optimisers, ways of drawing tables, loss lists and numbers of epochs", "why_tests_cant": "any number of epochs of any network", "anchors": ["gensit/experiments.py: JointTableSIM_NN.run, model_update_and_export", "gensit/learning_models/HarrisWilsonModel_NeuralNet.py: update_loss"]}
{"id": "C162", "title": "The table loss asks for the table", "statement": "In joint training the table likelihood loss is smallest exactly at the intensities whose cells have the shares of the drawn table: shares of the grand total when the total is given, shares of each row when row sums are given, and correspondingly for the other constraints. (Violated without constraints, where the loss has no lower bound on normalised intensities, and with row and column sums, where the intensity equal to the table is beaten by another.)", "quantifier": "all tables, intensities, sizes", "why_tests_cant": "a minimum over a continuum of intensities for every table", "anchors": ["gensit/contingency_table/ContingencyTable_MCMC.py: build_table_distribution", "gensit/utils/probability_utils.py: log_poisson_pmf_unnormalised, log_multinomial_pmf_unnormalised, log_product_multinomial_pmf_unnormalised, log_fishers_hypergeometric_pmf_unnormalised", "gensit/experiments.py: JointTableSIM_NN.run"]}
{"id": "C163", "title": "A trial is judged by its own model", "statement": "In hyperparameter optimisation the value of a trial is the mean over its epochs of the metric of its own model, and what is reported for a trial comes from its model, however many workers run trials and however their epochs interleave. (True of one worker; violated with several, whose trials share the learning model of one experiment.)", "quantifier": "all models, metrics, numbers of trials and epochs and all schedules of the workers", "why_tests_cant": "every interleaving of any number of trials and epochs", "anchors": ["gensit/experiments.py: optimise_experiments_sequentially, update_optimisation_progress, SIM_NN.run, NonJointTableSIM_NN.run, JointTableSIM_NN.run"]}
{"id": "C164", "title": "A table built from partial data holds the data given", "statement": "A contingency table built from a table and margins keeps every known cell and every margin given, and margins that are not given are completed so that row sums, column sums and total fit together; a table whose known cells contradict the margins is refused. (Violated: a table with an unknown cell loses all its known cells.)", "quantifier": "all tables, unknown cells, margins given and random draws", "why_tests_cant": "every pattern of known cells and margins", "anchors": ["gensit/contingency_table/__init__.py: ContingencyTable.import_tabular_data"]}
{"id": "C165", "title": "Residual margins stay margins minus fixed cells", "statement": "After the table or the margins of a contingency table are replaced, the residual margins are the new margins minus the fixed cells. (Violated: the fixed cells are ignored, so this holds exactly when their contributions are zero.)", "quantifier": "all tables, sets of fixed cells, margins and sequences of replacements", "why_tests_cant": "every set of fixed cells", "anchors": ["gensit/contingency_table/__init__.py: update_margins, update_constrained_margins, update_unconstrained_margins, update_margins_from_table, update_table"]}
{"id": "C166", "title": "Sampled margins fit together", "statement": "Margins that are sampled before a chain starts have equal row, column and grand totals, whichever of them are sampled. (Violated when the total is sampled as well: rows and columns are drawn for the stored total.)", "quantifier": "all tables, constrained axes, intensities and random draws", "why_tests_cant": "every outcome of the draws", "anchors": ["gensit/contingency_table/ContingencyTable_MCMC.py: sample_margins_2way_table, initialise_unconstrained_margins, initialise_constrained_margins"]}
{"id": "C167", "title": "The first table of a chain satisfies all constraints", "statement": "Whatever initial solver is named, a chain starts from a non-negative table that meets every constrained margin and fixed cell, or not at all; every solver that can be named starts the chain. (The first part holds; the second is violated: two of the solvers offered on the command line do not exist, only one is admitted by the schema, and random_sample raises whenever a margin is constrained.)", "quantifier": "all sizes, margins, fixed cells, solver names and random outcomes", "why_tests_cant": "every solver and every outcome of its random choices", "anchors": ["gensit/contingency_table/ContingencyTable_MCMC.py: update_table_initialisation_solver, initialise_table", "gensit/contingency_table/__init__.py: map_table_solver_name_to_function, admissibility_debugging, table_random_sample, table_direct_sampling, table_maximum_entropy_solution, table_monte_carlo_sample, table_import", "gensit/static/global_variables.py: TABLE_SOLVERS"]}
{"id": "C168", "title": "A Markov basis is taken over only by a table it was made for", "statement": "A Markov basis passed to a chain is used only when it was generated for a table of the same size, constrained axes and fixed cells; otherwise it is refused. (Violated: only the number of dimensions is compared.)", "quantifier": "all pairs of tables", "why_tests_cant": "every pair of sizes and constraints", "anchors": ["gensit/contingency_table/__init__.py: ContingencyTable.__eq__", "gensit/contingency_table/ContingencyTable_MCMC.py: ContingencyTableMarkovChainMonteCarlo.__init__"]}
{"id": "C169", "title": "Resuming a sweep runs what is unfinished", "statement": "A sweep started with --load_experiment runs exactly the configurations of the named experiment whose outputs are incomplete and adds them to it. (Violated always: resuming raises, or, when the named experiment cannot be read, silently runs everything again as a new experiment.)", "quantifier": "all experiments, sets of finished configurations and files", "why_tests_cant": "every interruption point of a sweep", "anchors": ["gensit/experiments.py: ExperimentSweep.__init__, load_config, run", "gensit/config.py: trim_sweep_configurations, prepare_experiment_config"]}
{"id": "C170", "title": "Relative residuals and sparsity", "statement": "The relative residual of a test cell is its absolute residual over its true value (at least one), the margin error is the absolute error of the margin over the test cells relative to the true margin, and sparsity is the share of zero cells of each table. (Violated: the residual is divided by the smallest true value of the row, and all tables get one common sparsity.)", "quantifier": "all predictions, truths, masks and numbers of samples", "why_tests_cant": "every pattern of test cells and values", "anchors": ["gensit/utils/math_utils.py: relative_l_1, mean_absolute_residual_percentage_error, sparsity"]}
{"id": "C171", "title": "Validation of samples while a network is trained", "statement": "With sample validation on, a run completes exactly when every sample it stores has normalised attractions and a table meeting the constraints. (Violated: with a late or thinned writing schedule the first step aborts the run.)", "quantifier": "all sample sequences, constraints, writing schedules and batch sizes", "why_tests_cant": "every schedule and every sample path", "anchors": ["gensit/experiments.py: Experiment.validate_samples, Experiment.model_update_and_export, Experiment.write_data, NonJointTableSIM_NN.run, JointTableSIM_NN.run"]}
{"id": "C172", "title": "A seeded run is determined by its configuration", "statement": "The random numbers a seeded experiment uses depend on its own configuration only: not on the state the process was in, nor on the experiments or sweep members run before it. (Violated when several network or comparison experiments are configured in one call, and without a seed in forked sweep workers.)", "quantifier": "all generators, seeds, lists of experiments, sweep sizes and worker assignments", "why_tests_cant": "every order and grouping of experiments", "anchors": ["gensit/utils/misc_utils.py: set_seed", "gensit/main.py: setup_experiments", "gensit/utils/probability_utils.py: generate_stopping_times", "gensit/learning_models/HarrisWilsonModel_MCMC.py: load_stopping_times"]}
{"id": "C173", "title": "Reported acceptance rates", "statement": "A run with any writing schedule completes, and its progress report gives, for every acceptance the experiment records, the percentage of accepted proposals among the stored steps. (Violated: with a late or thinned schedule the two intensity samplers abort after the first step; parameters' acceptance is not reported by one of them.)", "quantifier": "all acceptance sequences, experiments and writing schedules", "why_tests_cant": "every schedule and every history of acceptances", "anchors": ["gensit/experiments.py: Experiment.show_progress, Experiment.print_initialisation, SIM_MCMC.run, JointTableSIM_MCMC.run, Table_MCMC.run"]}
{"id": "C174", "title": "The table experiment stores on schedule", "statement": "The table experiment stores its sample exactly at the steps its writing schedule names. (Violated: its clock does not advance in the loop, so it stores every step or none.)", "quantifier": "all numbers of steps and writing schedules", "why_tests_cant": "every schedule and run length", "anchors": ["gensit/experiments.py: Table_MCMC.run, Experiment.write_data"]}
{"id": "C175", "title": "Log messages", "statement": "The log file of a run holds, in order and once each, the messages the run logged, also when the process is killed and when the run is a member of a sweep. (Violated: messages are kept in memory until the outputs are closed, and members of a sweep share the memory.)", "quantifier": "all histories of messages, output files, closings and exits, all sweeps and all points at which a process is killed", "why_tests_cant": "every crash point, sweep and history", "anchors": ["gensit/utils/logger_class.py: CustomFileHandler, DualLogger", "gensit/outputs.py: Outputs.open_output_file, Outputs.write_log", "gensit/experiments.py: Experiment.close_outputs, ExperimentSweep.prepare_instantiate_and_run"]}
{"id": "C176", "title": "Functions over combinations of arguments", "statement": "Applying a composition of functions over swept arguments gives, for every combination of isolated and coupled arguments, the output of the functions in order with their fixed and swept arguments; arguments both fixed and swept are rejected; slicing without an end keeps everything. (Violated for coupled arguments, conflicts and slices without an end.)", "quantifier": "all data, functions, fixed, isolated and coupled arguments", "why_tests_cant": "every number of arguments and values", "anchors": ["gensit/utils/misc_utils.py: xr_apply_and_combine_wrapper, xr_islice"]}
{"id": "C177", "title": "Functions applied group by group", "statement": "Each group gets the arguments given for its coordinates. (Violated with two or more groups and for dimensions outside the sweep.)", "quantifier": "all groups, labels and argument dictionaries", "why_tests_cant": "every number of groups", "anchors": ["gensit/utils/misc_utils.py: xr_apply_by_group"]}
{"id": "C178", "title": "Options with several values", "statement": "Options of the command line that are given several times or with several values hand over exactly the values written, each in its place: coordinates, keywords of losses, burn-in/thinning/trimming, validation data, margins; exclusive options are refused together. (Violated: uses of -x/-y/-z after the second are dropped, and --margins hands over the text of a tuple and takes a following positional argument.)", "quantifier": "all command lines: all numbers of uses, values and names", "why_tests_cant": "every number of uses and every text", "anchors": ["gensit/utils/click_parsers.py: coordinate_parse, split_to_list, to_list, to_dict, btt_callback, OptionEatAll, NotRequiredIf", "gensit/main.py: options -x, -y, -z, --loss_kwarg_keys, --burnin_thinning_trimming, --validation_data, --margins"]}
{"id": "C179", "title": "Chi-squared distances", "statement": "The chi-squared row (column) distance of two tables is the weighted squared distance of their row (column) profiles: never negative, zero exactly for equal profiles, symmetric, and the combined distance is the sum of both. (Violated: not symmetric in general; the combined distance always raises.)", "quantifier": "all pairs of real tables of any dimensions", "why_tests_cant": "every table and dimension", "anchors": ["gensit/utils/math_utils.py: chi_squared_row_distance, chi_squared_column_distance, chi_squared_distance"]}
{"id": "C180", "title": "Relative errors", "statement": "The relative error of a cell is the absolute difference of prediction and truth divided by the cell's own true value; cells outside the mask have no error. (Violated: the least true value of the row is used.)", "quantifier": "all tables, predictions and masks", "why_tests_cant": "every table and mask", "anchors": ["gensit/utils/math_utils.py: l_1, relative_l_1"]}
{"id": "C181", "title": "The mode of a multinomial law", "statement": "The counts returned are nonnegative, add up to the number of trials and have maximal probability under the multinomial law. (The last part is violated: a random vector is used in place of the fractional parts.)", "quantifier": "all numbers of trials, probability vectors and random vectors", "why_tests_cant": "every law and every draw", "anchors": ["gensit/utils/probability_utils.py: multinomial_mode"]}
{"id": "C182", "title": "Observation noise", "statement": "The misfit of predicted and observed destination attractions is the Gaussian negative log-likelihood with the configured noise percentage (or the one passed), its gradient is the derivative, it is zero exactly for a perfect prediction, and the two functions that compute it agree. (The last part is violated.)", "quantifier": "all observations, predictions, noise percentages and numbers of destinations", "why_tests_cant": "every real input", "anchors": ["gensit/physics_models/HarrisWilsonModel.py: obs_noise_percentage_to_var, negative_destination_attraction_log_likelihood, negative_destination_attraction_log_likelihood_and_gradient, dest_attraction_ts_likelihood_loss"]}
{"id": "C183", "title": "The normalising constant exists", "statement": "The normalising constant of exp(-potential), which the inverse problem for high noise estimates by annealed importance sampling, is positive and finite for every admissible parameter. (Violated: it is infinite when delta is 0, which the schema admits and has as default.)", "quantifier": "all dimensions, cost matrices, parameters and noise levels", "why_tests_cant": "every parameter value; finiteness of an integral cannot be tested", "anchors": ["gensit/physics_models/HarrisWilsonModel.py: sde_pot", "gensit/intensity_models/spatial_interaction_models/TotallyConstrained/__init__.py: sde_pot", "gensit/intensity_models/spatial_interaction_models/ProductionConstrained/__init__.py: sde_pot", "gensit/learning_models/HarrisWilsonModel_MCMC.py: biased_z_inverse, unbiased_z_inverse, annealed_importance_sampling_log_z", "data/inputs/configs/schemas/cfg_schema.json: harris_wilson_model.parameters.delta"]}
{"id": "C184", "title": "Figures are kept apart", "statement": "The data of a figure are stored under a name of their own: figures of different burn-in, thinning or trimming, or of other outputs when made by experiment, do not replace each other, and the chosen data format stores the data. (Violated: the name does not depend on what is drawn; dat raises, txt stores nothing, csv raises without groups.)", "quantifier": "all settings, slices, folders and figure data", "why_tests_cant": "all pairs of requests", "anchors": ["gensit/plot.py: create_plot_filename, data_plot", "gensit/utils/misc_utils.py: write_figure_data"]}
{"id": "C185", "title": "Drawing again from stored data", "statement": "A figure drawn from its stored data is the figure that was drawn when the data were stored. (Violated: features that were not asked for are stored as nothing and lose their defaults, without marker sizes the program ends, only the first stored figure of a directory is drawn and several directories are refused.)", "quantifier": "all figure data, numbers of records and data directories", "why_tests_cant": "all stored data", "anchors": ["gensit/plot.py: read_plot_data, plot_simple, data_plot", "gensit/utils/misc_utils.py: write_figure_data, unpack_data"]}
{"id": "C186", "title": "Panels as asked for", "statement": "Every panel is labelled with the groups it shows, has the scales asked for and ticks from the given start in the given steps up to the end of its axis. (Violated: column groups are not labelled, the x scale goes to the y-axis, y ticks end with the x-axis.)", "quantifier": "all groups, scales, tick locations and panels", "why_tests_cant": "all numbers of rows and columns", "anchors": ["gensit/plot.py: plot_simple"]}
{"id": "C187", "title": "Legends and lines", "statement": "The legend lists every label drawn exactly once beside a matching handle, in the panel asked for, for any number of columns; lines have the style and width asked for. (Violated: the legend goes to the last panel; styles and widths of lines are never handed on.)", "quantifier": "all labels, handles, orders, panels and numbers of columns", "why_tests_cant": "all label lists and column counts", "anchors": ["gensit/plot.py: plot_simple, plot_wrapper", "gensit/utils/misc_utils.py: flip"]}
{"id": "C188", "title": "One equilibrium", "statement": "For fixed parameters and costs there is exactly one vector of destination attractions that the noise-free simulation leaves alone; the potential is smallest there and curves upwards in every direction, so that the saddle-point value exists, whichever start the optimiser finds it from. (Violated for alpha above one: several equilibria, some of them no minimum.)", "quantifier": "all alpha, beta, delta > 0, kappa, epsilon, sigma, step sizes, cost matrices and numbers of origins and destinations", "why_tests_cant": "all real parameters and costs, uniqueness among all vectors", "anchors": ["gensit/intensity_models/spatial_interaction_models/TotallyConstrained/__init__.py: sde_pot, sde_pot_hessian", "gensit/physics_models/HarrisWilsonModel.py: run_single, sde_potential_hessian", "gensit/learning_models/HarrisWilsonModel_MCMC.py: biased_z_inverse"]}
{"id": "C189", "title": "Switching storage on and off", "statement": "With export_samples off an experiment touches no samples file, alone or in a sweep; with it on, or not given, it opens, fills and closes one. The sweep itself opens none and leaves the settings as they were for its experiments. (Violated when the switch is not given: a sweep raises; and when it is given twice: an empty file replaces the old one and stays open.)", "quantifier": "all configurations with a first experiment in which the switch occurs at most in the experiment, all sweeps of other parameters", "why_tests_cant": "all configuration trees and swept paths and values", "anchors": ["gensit/outputs.py: open_output_file", "gensit/experiments.py: ExperimentSweep, initialise_data_structures, write_data, close_outputs", "gensit/config.py: prepare_experiment_config", "gensit/utils/misc_utils.py: deep_get, deep_update, deep_updates"]}
{"id": "C190", "title": "Values written as text", "statement": "Different values are written as different texts: the values of a sweep in its id, entries of discrete axes and groups of subplots, so that they are kept apart. (Violated by scientific notation, which leaves one digit of numbers above 100; by texts with commas; by nothing, the empty text and the text none; and by numbers and their texts.)", "quantifier": "all numbers, texts and lists of them, nested to any depth", "why_tests_cant": "pairs of arbitrary values nested to any depth", "anchors": ["gensit/utils/misc_utils.py: stringify", "gensit/config.py: get_sweep_id", "gensit/plot.py: Plot.get_discrete_ticks, Plot.map_groups_to_axes"]}
{"id": "C191", "title": "One equilibrium, production constrained", "statement": "For fixed parameters, origin demands and costs there is exactly one vector of destination attractions that the noise-free simulation with the production-constrained intensity leaves alone; its total is fixed by the demands, and the potential that the samplers use is stationary just there. (Violated for alpha above one, by the potential as coded, and for a single origin with several destinations, where a step raises.)", "quantifier": "all alpha, beta, delta > 0, kappa, epsilon, sigma, step sizes, non-negative demands, cost matrices and numbers of origins and destinations", "why_tests_cant": "all real parameters, demands and costs, uniqueness among all vectors", "anchors": ["gensit/intensity_models/spatial_interaction_models/ProductionConstrained/__init__.py: sde_pot, log_flow_matrix", "gensit/physics_models/HarrisWilsonModel.py: run_single, run"]}
{"id": "C192", "title": "The simulation settles", "statement": "Without noise the simulated attractions tend to the equilibrium as the number of iterations grows, from every positive start. (Holds for steps up to a bound that depends on the parameters and the range of starts; violated for large steps.)", "quantifier": "all alpha up to one, beta, delta > 0, kappa, epsilon, demands, costs, dimensions, starts and step sizes up to the bound", "why_tests_cant": "a limit over infinitely many iterations, for all real starts", "anchors": ["gensit/physics_models/HarrisWilsonModel.py: run, run_single", "gensit/intensity_models/spatial_interaction_models/ProductionConstrained/__init__.py: log_flow_matrix", "gensit/intensity_models/spatial_interaction_models/TotallyConstrained/__init__.py: log_flow_matrix"]}
{"id": "C193", "title": "Records shown by their own values", "statement": "Records whose metadata differ in the variable that a coordinate, group or label is made of are shown with different coordinates, groups or labels. (Holds for numbers other than sigma and for listed texts with expressions of their own; violated for every text that has no listed expression, for sigma, and a number as the value of a label key raises.)", "quantifier": "all metadata values, variables, groups of variables and label keys, and every behaviour of Python's text conversions", "why_tests_cant": "all values and all numbers and texts; a test shows single pairs", "anchors": ["gensit/plot.py: extract_plot_variable", "gensit/utils/misc_utils.py: latex_it, tidy_label, get_value, parse, sigma_to_noise_regime", "gensit/static/plot_variables.py: RAW_EXPRESSIONS, LABEL_EXPRESSIONS"]}
{"id": "C194", "title": "Features follow the metadata", "statement": "A marker, hatch, line style, colour or size set to a metadata key shows each record by its own value of that key. (Holds for markers and hatches by sigma, colours by title and sizes by numbers; violated for line styles, for keys without a table, and for keys like 'type' that Python evaluates to something else.)", "quantifier": "all metadata, keys, values and features, and every behaviour of eval", "why_tests_cant": "all metadata and keys", "anchors": ["gensit/plot.py: extract_plot_variable", "gensit/utils/misc_utils.py: get_value, unstringify, parse", "gensit/static/plot_variables.py: PLOT_MARKERS, PLOT_HATCHES, PLOT_COLOURS, PLOT_LINESTYLES"]}
{"id": "C195", "title": "A summary row for every sweep setting", "statement": "Two settings of a sweep have rows of their own in the table that summarise writes. (Holds for settings with numbers that differ in a key other than sigma, or in the noise regime of sigma; violated for values of sigma of one regime: their rows are merged and only the last value is kept.)", "quantifier": "all sweep settings with numbers, all keys and numbers of settings, all evaluated expressions", "why_tests_cant": "all combinations of swept values", "anchors": ["gensit/outputs.py: evaluate_expressions", "gensit/utils/misc_utils.py: get_value, sigma_to_noise_regime, unstringify"]}
{"id": "C196", "title": "The parameters forget where they started", "statement": "While the destination sizes are held fixed, the law of the parameters after n updates approaches their posterior at a geometric rate from every start in the square, if the log posterior is bounded on the square and the steps of the walk have a density bounded below (any diagonal covariance without zeros); the totally constrained model with delta > 0 and its exact normalising constant meets this, for all data. For correlated steps two runs still approach each other at this rate.", "quantifier": "all starting parameters, numbers of updates, events and functions between 0 and 1, destination attractions, tables, costs, walks with a density", "why_tests_cant": "convergence is a statement about all run lengths and all starts", "anchors": ["gensit/learning_models/HarrisWilsonModel_MCMC.py: theta_gibbs_step, theta_given_table_gibbs_step", "gensit/experiments.py: SIM_MCMC, JointTableSIM_MCMC"]}
{"id": "C197", "title": "Averages over the chain approach posterior means", "statement": "While the destination sizes are held fixed and under the hypotheses of C196, the mean squared error of an average over N successive parameters, as an estimate of the posterior mean, is at most a constant over N from every start, so the probability of missing the posterior mean by any margin tends to 0.", "quantifier": "all starting parameters, numbers of updates, functions between 0 and 1, destination attractions, tables, costs, walks with a density", "why_tests_cant": "consistency is a statement about all run lengths and all starts", "anchors": ["gensit/learning_models/HarrisWilsonModel_MCMC.py: theta_gibbs_step, theta_given_table_gibbs_step", "gensit/experiments.py: SIM_MCMC, JointTableSIM_MCMC", "gensit/outputs.py: OutputSummary"]}
{"id": "C198", "title": "Averages over sampled tables approach expected tables", "statement": "With both margins constrained and degree-higher proposals, the mean over K sampled tables of any quantity (a cell, a statistic, an indicator) is a consistent estimate of its mean under the target law on the tables with the given margins and fixed cells: the mean squared error is at most a constant over K, from every admissible initial table and after any burn-in, so the probability of missing by any margin tends to 0.", "quantifier": "all table shapes, margins, fixed cells, generated bases, intensities with odds ratios in the allowed range, initial tables, quantities, run lengths and burn-ins", "why_tests_cant": "consistency is a statement about all run lengths and the law of whole paths of the chain", "anchors": ["gensit/contingency_table/ContingencyTable_MCMC.py: table_gibbs_step, direct_sampling_proposal_2way_table, degree_higher_proposal_2way_table", "gensit/experiments.py: Table_MCMC.run, JointTableSIM_MCMC.run", "gensit/outputs.py: OutputSummary"]}
{"id": "C199", "title": "Joint sampling of parameters and tables converges", "statement": "Under joint sampling of parameters and tables with the intensity's scaling factor as configured, attractions fixed and tables drawn directly given the parameters, the law of (parameters, table) after N iterations approaches the joint posterior at a geometric rate: for every measurable test with values in [0,1] the expected value after N iterations is within (1 - 4 c exp(-2B))^N of its posterior mean, from every initial parameters and every initial table satisfying the constraint, where B bounds the log posterior on the square and c is a lower bound of the density of the walk there; two runs from different starts forget them at the same rate.", "quantifier": "every table shape and constraint total (or row sums), potential, intensity, walk density symmetric in signs, number of parameter steps per iteration, initial parameters and table, number of iterations, test function", "why_tests_cant": "convergence in law from every start over a continuous parameter space and an unbounded number of iterations: a test sees finitely many samples of one run", "anchors": ["gensit/experiments.py: JointTableSIM_MCMC.run", "gensit/learning_models/HarrisWilsonModel_MCMC.py: theta_given_table_gibbs_step, negative_table_log_likelihood_expanded", "gensit/contingency_table/ContingencyTable_MCMC.py: table_gibbs_step, direct_sampling_proposal_2way_table"]}
{"id": "C200", "title": "Averages over joint samples approach posterior means", "statement": "Under joint sampling of parameters and tables (attractions fixed, tables drawn directly given the parameters, scaling factor as configured), the mean over N stored samples of any bounded quantity of parameters and table (a cell, a parameter, an indicator) is a consistent estimate of its mean under the joint posterior: the mean squared error is at most a constant over N, from every initial parameters and every initial table satisfying the constraint, so the probability of missing by any margin tends to 0.", "quantifier": "every table shape and constraint, potential and intensity with bounded log posterior, walk symmetric in signs with density bounded below, number of parameter steps per iteration, initial parameters and table, number of iterations, quantity and margin", "why_tests_cant": "a limit over unboundedly long random runs from every start: a test sees one finite run and cannot tell a biased limit from noise", "anchors": ["gensit/experiments.py: JointTableSIM_MCMC.run", "gensit/learning_models/HarrisWilsonModel_MCMC.py: theta_given_table_gibbs_step", "gensit/contingency_table/ContingencyTable_MCMC.py: table_gibbs_step, direct_sampling_proposal_2way_table", "gensit/outputs.py: OutputSummary"]}
