# Formal model of GeNSIT in Lean 4 — design

## Layout

* `lean/Verif/<Area>/Model.lean` — executable model, one definition per Python function, each with a
  citation `file:lines`.
* `lean/Verif/<Area>/Spec.lean` (where needed) — small independent specification vocabulary.
* `lean/Verif/<Area>/Lemmas.lean` — helper lemmas.
* `lean/Verif/<Area>/Props.lean` — the property theorems, each followed by a non-vacuity `example`.
* `properties.jsonl` — English properties, `MANIFEST.json` — property → theorems.
* `seeded/LOG.jsonl` — mutation log.

## Trusted base

* Lean 4.33.0's kernel. No axiom is added; every theorem depends at most on `propext`, `Classical.choice` and `Quot.sound`
  (table per theorem at the end of this file, generated by `tools/axioms.py`). No compiled code is trusted: concrete
  instances are checked by kernel reduction (`decide`, `decide +kernel`, `rfl`).
* The reading of /repo: nothing is executed; each model definition cites the lines it models and states its simplifications.
* Modelling conventions that hold everywhere:
  * Python `int`/`int32` tensors are mathematical integers (`Int`/`Nat`): int32/float32 wrap-around and rounding are not
    modelled (except where the finding is about them: `f32OfNat`, `toInt32`). Reals are used where the code computes with floats.
  * Randomness is a parameter: a theorem quantifies over every value the generator could return, over the documented support of
    the distribution, or (C58, C92) over a density.
  * Exceptions are values (`Option`, `Except`, or a constructor `crash`).
  * Loops are folds, structural recursion or relations over finite traces; concurrency is a labelled transition system.
  * Logging, progress bars, device placement, `gc`, sleeping are not modelled.
  * PyTorch / numpy / xarray / h5py primitives are represented by their documented input/output behaviour.

### What is modelled

| source | modelled | not modelled |
|---|---|---|
| contingency_table/__init__.py | axes and constraint bookkeeping, residual margins, propagation of forced cells, admissibility, distribution choice, both initialisers, cell/margin statistics (Table, Init) | reading of data files except the Markov-basis/table guard (Import), `table_import` |
| contingency_table/MarkovBasis.py | both generators, cycle canonical form and enumeration, update/import filters (Basis, Cycle, Import) | file formats |
| contingency_table/ContingencyTable_MCMC.py | proposal selection, degree-one and higher proposals, acceptance, direct sampling with rejection, convergence of the chain and of averages over it (Chain) | - |
| intensity_models/spatial_interaction_models/* | both models, log flow and intensity demand (Sim) | device/dtype handling |
| physics_models/HarrisWilsonModel.py | potentials, gradients, likelihoods, Euler step, whole trajectories, noise regime, precedence and names of parameters (Sim, Sampler, Sweep, Physics) | plotting helpers |
| learning_models/HarrisWilsonModel_MCMC.py | parameter and attraction updates with and without a table, leapfrog, annealing schedule, stopping time and truncated series, stationarity, rates of convergence and averages of the parameter and joint chains (Sampler, Stats) | process pools, the optimiser used for the saddle point |
| learning_models/HarrisWilsonModel_NeuralNet.py, XGB, GBRT, RandomForest, GAT | architecture, activations, bias, hyperparameters, update loop, the losses of a step, which losses reach the weights (NN); loss, attention layers, batches, prediction (GAT); how the comparison experiments use the models (XGB, RF, GBRT) | floating point, automatic differentiation, the fits of xgboost and sklearn |
| config.py, utils/config_data_structures.py | path access, validation, sweeps, sweep ids, grouping, schema checks, discovery of sweeps (Config, Sweep, Schema, Discover) | JSON/TOML syntax |
| utils/misc_utils.py, math_utils.py, probability_utils.py | nested-dictionary helpers, ranges, conversions, likelihoods, metrics, intervals, distances (Config, Utils, Stats) | plotting and geography helpers |
| utils/multiprocessor.py, outputs.py, experiments.py | bounded executor, collectors, slots, write schedule, metadata files, slicing, grouping, names of output folders and the times read from them (Folder), experiment loops as sequences of updates and writes, grid searches, summary tables and folder search (Exec, Outputs, Sampler, Analysis, Summary) | HDF5 layout, xarray merging beyond coordinates |
| main.py, click_parsers.py | options of create / run / optimise with their defaults, gathering of settings, `update_settings`, merging into the configuration, `--evaluation_kwargs`, `--statistic` | click itself, the plot / summarise / reproduce commands, logging, thread settings |
| inputs.py | reading and checking of the files, derived parameters, masks, margins, device and label conversions, copies, synthetic data given the draws (Inputs) | parsing of files, `*_mask` files, `prepare_neural_net_outputs` (raises: `time_series` is unbound), writing of synthetic data |
| plot.py | collection of records, stacking order, subplots, axis limits, discrete ticks, what is annotated and shown (Plot) | drawing (matplotlib), LaTeX labels, file formats |
| utils/misc_utils.py (`set_seed`), utils/logger_class.py | where seeds are set and what the generators then determine (Seed); buffering and writing of log messages (Log) | the random number generators themselves |
| scripts | only what is listed under the respective property | everything else |

## Plan per property

| id | modelled as | proof method |
|----|-------------|--------------|
| C01–C04 | free cells as duplicate-free lists of `Fin m × Fin n`; moves as signed cell lists | induction over pair enumeration; fibre distance induction for connectivity |
| C05 | generator with its random choice as a function; reachability relation | counter-example choice (negation) + connectivity of the full set of 2x2 moves |
| C06–C09 | proposals as functions of draw; `table_gibbs_step` as accept/reject; chains as lists of draws | invariant by induction over the draw list |
| C10 | log-target difference over reals with `Nat.factorial` | negation with witness + the true identity for the intended formula |
| C11–C13 | rejection loop over a list of candidate draws | loop invariant; layout counter-example for C13 |
| C14, C15 | permutation slicing; unit-allocation loop as step relation with arbitrary choices | counting; potential-function termination, invariant table+residual=margins |
| C16, C17 | residual bookkeeping as folds | induction; negation for double subtraction |
| C18–C22, C26, C27 | decision logic on finite axis sets / lists | set reasoning, refinement |
| C23 | Finset sums | Fubini |
| C24, C25 | cycles as node lists; canonical form as minimal rotation | induction on the cycle; rotation algebra |
| C28–C34, C43 | nested settings as an inductive tree (dict/list/leaf) | structural induction, get/put laws; negations for code that misbehaves |
| C35–C40 | sweep parsing as list functions | cartesian-product characterisation |
| C41, C42 | comparisons on ordered values | case analysis; negation for the exclusive interval |
| C44, C45 | list/dictionary conversions | round-trip, induction |
| C46–C48 | labelled transition systems | invariant over all traces |
| C49–C54 | list slicing, write schedule, file-system map | induction, counting |
| C55, C56 | real functions (`Real.exp`, `Real.log`, `Finset.sum`) | algebra |
| C57, C58 | real-vector update functions | case analysis, induction on steps |
| C59–C62 | list / rational functions | order reasoning |
| C63, C64 | depth-first enumeration of cycles with a length bound | completeness by induction on the walk; a long cycle as counter-example |
| C65, C66 | flattening and modification of trees | structural induction |
| C67–C70 | tensors as functions of flat indices; `HasDerivAt` for gradients | index arithmetic; calculus |
| C71–C76, C92 | one update = a function of state and draws; densities on the plane | algebra, induction over histories, change of variables and Tonelli for stationarity |
| C77–C84 | sums over ranges, order statistics, real-valued losses | algebra, order reasoning, refutations |
| C85, C86 | dictionary look-up; accumulation loop over batches | induction over the data |
| C87–C91 | schema and value trees, class constructors and `check` methods | mutual structural induction |
| C93 | Euler step over the reals | algebra |
| C94 | law of the degree-higher draw (scipy pmf as documented) as a finite mean over `Sampler.step` | detailed balance on a rectangle, involution on transitions |
| C95 | law of the degree-one step, uniform number integrated over (0,1) | Metropolis detailed balance, involution (move, sign); witness for the negation |
| C96 | rejection loop on independent draws | recursion on the number of rounds, geometric series |
| C97 | torch multinomial / Poisson pmf as documented, composed with the samplers | multinomial theorem, bijection tables / counts |
| C98–C103 | `Config.validate` as a recursion over the parameter file with a state (settings, mode, registered sweeps); value checks a parameter; the shipped JSON files as data (Shipped, generated by tools/gen_shipped.py) | refinement of the recursion to a loop over parameters, invariant with frame, kernel evaluation on the shipped files |
| C104, C105 | `Config.experiment_validate`: loop over the experiment schema on three trees, then validation | invariant "cut" (what a set of deletions leaves), composition; kernel evaluation on the 13 shipped schemas |
| C106 | command table (options, defaults), gathering, `deep_updates` as a fold over the tree | frame and storage lemmas along a path, induction over the updates |
| C107 | `ExperimentHandler`: deletion loop and dictionary by type over any list of experiments | invariant "processed suffix", snoc induction |
| C108, C109 | strings as character lists, split / strip / join | round trips, unique decomposition |
| C110, C112 | a collection as its attribute list, each attribute a list of group arrays; exceptions with the state left behind | induction over attributes; positions by `getElem?` |
| C111 | the cache directory as a list of (file name, content); file names as character lists with split, replace and numeric sort; `load` as read, collect missing, write; crash = prefix of the writes, possibly with a torn file | invariant `Holds` (directory content = collection) kept by every write, uniqueness of sorted lists |
| C113–C116 | files as a partial map from names to arrays (shape, exact entries), the schema as a table, `read_data` as a fold with errors as values, ordered dictionaries as association lists | what each step of the fold does to an attribute (`readFields_step`), inversion of a successful reading (`readData_ok`), algebra for delta and kappa |
| C117–C119 | attributes with a kind (NumPy, tensor on a device, labelled with coordinates); every conversion as one loop `castEach` with a step per attribute | the loop acts on each attribute independently (`castEach_spec`, `castEach_total`), hence also in any order |
| C120 | the generator as a function of the draws, trajectories, optima and counts | algebra of sums and maxima over lists |
| C121 | grid as index pairs, predictions as a partial function of the parameter dictionary, NaN as a value of the grid, first-maximum argmax | invariant of the scan: best score so far and grid written so far |
| C122 | the scan over (alpha, beta * bmax) with failing evaluations skipped | invariant of the scan |
| C123 | iteration of the modelled Euler step with arbitrary draws per step and intensity as a function of the state | induction on the number of steps |
| C124 | loop over operations with evaluation as an arbitrary partial function of the environment; rows as ordered dictionaries; specification: which operation has which value for which setting | invariant of the loop relating rows to settings met so far; witnesses for the violations |
| C125 | lookup of metadata keys in the configuration (model of C28), record merge, loop over folders and members with exceptions as values | case analysis, induction over folders |
| C126 | directory trees, walk with depth limit, regular expression of the code as a matcher on characters, stable sort by time | matcher equals the declarative "contains in order" predicate by induction; permutation argument for listing order |
| C127 | file name as text built from its parts | text cancellation, witnesses |
| C128 | get_sample as a lookup with errors as values; the intensities of the experiments over the reals | cancellation of the softmax, exact iff, witnesses |
| C129 | names of outputs as texts; created datasets and loaded names | membership, the writer of C50 |
| C130 | a results file as named datasets with shapes and cells, the shared extents, the writer of C50 | folds over datasets, products of extents |
| C131 | named arrays (dimension names, coordinates, values); transposition and stacking | mixed-radix positions, permutations |
| C132 | the pattern search on character lists, the objects present as a state | induction over the text and over the mentions |
| C133 | conditions as predicates on coordinates of a named array, `where(drop)` | kept positions as filtered ranges |
| C134 | comparison experiments: covariates, loop, masks; the learning model is any function | induction over iterations; negations for missing features and fill |
| C135 | trees as functions, forest and staged boosting as specification | sums over trees |
| C136 | loss with the broadcast shapes, flows, weights | algebraic decomposition; exact minimisers |
| C137 | attention layers over an arbitrary finite set of regions, reals | softmax weights; equivariance by transport along a bijection; locality by induction over layers |
| C138 | slices, shuffle as a permutation of indices, rate, batch size | flattening of slices; case analysis |
| C139 | columns of reals with NaN, min-max and standard scaling | order and sum lemmas |
| C140 | configuration tree, walk over all leaves, the loop of find_sweep_key_paths with exceptions | invariant over the list of leaves; correspondence of leaves with a relational specification of paths |
| C141 | settings of records as association lists, in-place update, merging | induction over records and folders |
| C142 | ordering tuples, stable lexsort, zorder | stability and sortedness of insertion sort; index arithmetic |
| C143 | first occurrences of groups, map to rows and columns, final loop | index of first occurrence is injective |
| C144 | Python min/max with NaN, accumulation over records | invariant over records |
| C145 | ticks, labels, map of positions | lookup lemmas; arithmetic on positions modulo the number of labels |
| C146 | true parameters read from the tree, precedence loop with exceptions | induction over the parameter names |
| C147 | write-back by first path into the tree | invariant: same paths, leaves replaced, unrelated paths untouched |
| C148 | text of the folder name and path; files as a map, runs as interleaved events (Folder) | suffix of fixed length, prefix-free types; induction over histories |
| C149 | regular expression search with backtracking, strptime (Folder) | characterisation of matches; peeling of number groups |
| C150 | both functions over the reals, division by zero as infinities/nan or exception (Stats/TTest) | symmetry of the distribution function; algebra of variances |
| C151 | law of the table after k steps by first-step analysis on the C94 kernel (Chain/Ergodic) | Doeblin-type contraction for an averaging operator with self-loops, applied to the connected component; uniqueness of limits for the negation |
| C152 | the annealer as a probabilistic program: nested integrals over starting law, momenta and uniforms around the executable step of the C75 model (Sampler/Annealing) | momentum law as a Gaussian density, detailed balance of C58 integrated over the momentum, induction over temperatures and particles; log-Gamma density by change of variables |
| C153 | biased_z_inverse and the log target constant over arbitrary optimiser, Hessian and Cholesky routine (Sampler/Saddle) | Gaussian integral by the linear change of variables given by the Cholesky factor; the model potential with one destination is a log-Gamma for the negation |
| C154 | the stopping-times folder as a map from names to lists, and the list of indices used by a run (Sampler/Stopping) | case analysis of the cache, induction over the iterations |
| C155 | unbiased_z_inverse over the stopping-time loop of C77 and the series of C78, means as integrals over the uniform draw (Sampler/Debias) | layer-cake over the levels, dominated summation, Markov inequality for the divergence |
| C156 | the parameter update of C92 with the draws behind the carried estimate as part of the state (Sampler/Pseudo) | pseudo-marginal detailed balance: the reflected walk is symmetric and the weight of a pair of (parameters, draws) is symmetric under exchange |
| C157 | the attraction update of C58/C74 with Gaussian momenta and uniform draws (Sampler/Attraction) | for the negation, the mass of a ball around the observation under one update is bounded by the mass of the proposal in the ball plus the mean rejection probability; for the positive part, volume preservation and reversibility of the leapfrog map (C58) |
| C158 | iterations of the joint sampler as nested means over all draws (Sampler/Joint) | caches are right along the run (bmax = 1), so every parameter step is the Metropolis kernel of C92; induction on steps and iterations; C80 for the table likelihoods |
| C159 | positions and names of learned parameters through samplers, grid search, training and writing (Physics/Names) | case analysis on the list of names, induction for dictionaries; witnesses for the negations |
| C160 | `update_loss` over abstract samples and functions, cost by origin over matrices (NN/Loss) | case analysis on the names, induction on the set of names; witness for the negation |
| C161 | an epoch of joint training with automatic differentiation as derivative with drawn tables held constant (NN/Learning) | losses without tracked inputs are constant functions of the weights; induction on epochs |
| C162 | the four unnormalised log likelihoods as losses over real tables (NN/TableLoss, on Stats/Likelihood) | Gibbs' inequality with equality case; explicit family of intensities for unboundedness; witness for odds ratios |
| C163 | threads of `study.optimize` as interleaved start/epoch steps over one shared experiment (Exec/Trials) | induction on epochs, trials and schedules; witness for the negation |
| C164 | `import_tabular_data` for a table with -1 for unknown cells and optional margins (Table/Build) | case analysis on which margins are given; exact refusal condition; witness |
| C165 | `update_margins`, `update_*_from_table`, `update_table` on the table state (Table/Build) | exact effect per axis; iff with vanishing fixed cells; witness |
| C166 | `sample_margins_2way_table`, `initialise_*_margins` with draws of given totals (Table/MarginSampling) | case analysis over sampled axes; witness |
| C167 | choice of solver, the five solvers and the final check (Init/Start, on Init and Chain) | returned tables pass the admissibility test (C20); invariants of the loops for non-negativity |
| C168 | `__eq__` and the basis check (Table/Build) | exact test; induction over moves; witness |
| C169 | start of a sweep with an experiment to resume (Sweep/Resume) | case analysis; negation for every readable sweep |
| C170 | the three statistics over a linearly ordered field, undefined divisions as `none` (Stats/Residual) | minimum as `IsLeast`; triangle inequality; double counting; witnesses |
| C171 | the check on the stored rows, the writing schedule and an epoch of training steps (Outputs/Validate) | C20 for the table; induction over steps; witness |
| C172 | generators as abstract state, seeding, constructors and runs as state transformers, forked copies (Seed/Seeding) | induction over experiments and sweep members; witnesses with counting generators |
| C173 | the progress report on the stored rows of a run (Outputs/Acceptance) | C128/C129 names; iff by cases on the schedule; witness |
| C174 | the writing schedule with the clock of the loop (Outputs/Acceptance) | induction over steps; iff; witness |
| C175 | the handler's buffer, the file in force and the contents of files; histories of events; exit, kill and fork (Log/Buffer) | induction over histories against a destination function; witnesses |
| C176 | the wrapper over abstract data and functions, errors as values (Analysis/Combine) | relation `Composes`; membership, length and distinctness of the product; witnesses |
| C177 | the loop over groups with its overwritten dictionary; labels (Analysis/Combine) | induction; witnesses |
| C178 | callbacks and option classes over lists of texts, click by its contract (Cli/Options) | splitting inverts writing; getElem lemmas; witnesses |
| C179 | real tables, sums over Fin (Stats/Distances) | sums of nonnegative terms; profiles as a separate specification; witnesses |
| C180 | rational tables with masks, NaN as none (Stats/Distances) | characterisation of the row minimum; witness |
| C181 | Le Gall's loop over integer counts with any argmin (Stats/Mode) | loop invariant; exchange argument for modes; witness |
| C182 | real analysis over any finite index set (Physics/Noise) | HasDerivAt; algebra; witness |
| C183 | Lebesgue integral of exp(-potential) over R^J (Sampler/Normaliser) | domination by products of one-dimensional integrals; unbounded slab for delta <= 0 |
| C184 | file names as texts, files as a map (Plot/Store) | unique decoding of the slices at commas and digits; witnesses |
| C185 | plot settings as partial maps of JSON values, reading of each feature, all records (Plot/Redraw) | congruence of the drawing; witness |
| C186 | the final loop over the panels, arange (Plot/Panels) | exact result of the loop; ceiling arithmetic; witnesses |
| C187 | legend dictionary, strided columns, any order (Plot/Panels) | permutation by residue classes; invariant of the dictionary; witnesses |
| C188 | noise-free `runSingle` on the totally constrained shares; `codeTarget`; any function with the second derivatives as entries | for a fixed total utility each balance equation is strictly monotone and the attractions add up to a constant, so two equilibria have the same total; coercivity of the potential gives a minimum; the quadratic form of the Hessian is a sum of squares where the gradient vanishes; Cholesky factors by the LDL decomposition |
| C189 | `openExports` (first occurrence anywhere), `experimentExports` (the experiment's), `sweepSettings`, `experimentConfig` (C36) | `deep_get` of a key with one possible place is the read there (C34); `deep_update` there and back is the identity; the sweep's writes hold no such key, and its additional entry is appended after the experiments, so never first |
| C190 | `stringify` on a tree of values; `str` of a number is a parameter with its premises in `Spec.GoodRepr` (met by `fracText`) | texts of entries contain no separator, so a text is read back from the left: induction on the tree with an arbitrary rest; rounding half to even within one half; pigeonhole on the nine digits of a decade |
| C191 | `run_single` on `log_flow_matrix` (`productionFlow`), shapes of `squeeze`/`logsumexp`/`reshape` (`demandNormalised`) | two balances multiplied out and added; for every origin the mean of `e^u` under old choices plus the mean of `e^-u` under new ones is at least two (covariance of opposite moves, over pairs); existence by the coercive Harris-Wilson potential |
| C192 | `runFinal` with both intensities | invariant box; the sum of `log(w/v) + v/w - 1` decreases by a multiple of the squared distance (first order by the inequality of C191, second order by a Lipschitz bound of the choices), so squared distances are summable |
| C193 | `extract_plot_variable` for coordinates and labels, `get_value`, `latex_it`, `parse`; `str`, `eval`, number parsing abstract (`PyText`) | the tables are data; joined texts without commas are cut apart by induction |
| C194 | `extract_plot_variable` for features with the tables of `plot_variables.py` | case analysis on how `eval` treats the setting; facts about the tables by computation on the whole table |
| C195 | `get_value` in `evaluate_expressions` (`shownSweep`), ids of rows of C124 | ids are cut apart at spaces, which number texts and regimes lack; induction over keys and over settings |
| C196 | `thetaStep`, `thetaStepT` of C72/C92, iterated (`Spec.meanAfter`) | minorisation: every update contains a fixed share of the uniform law on the square, so the spread of means shrinks by a factor; stationarity (C92) identifies the limit; for the model, the potential differences are bounded uniformly in alpha and beta |
| C197 | the chain of C196 with a running total (`Spec.withTotal`) | mean and mean square of the total obey linear recursions under one update; the deviation from N times the posterior mean is bounded by the geometric sum of C196, so the mean square grows linearly |
| C198 | the path of the table chain with a running total (`Spec.sampledTotal`, by the step of C94) | the mean and the mean square of the centred total obey linear recursions under one step; the former is bounded by the geometric sum of C151, so the latter grows linearly |
| C199 | the joint sampler of C158, its mean after N iterations (`jointMean`) | one parameter step brings the means from all (parameters, table) close to a value that does not depend on the table (a minorisation uniform over tables); averaging over the drawn table keeps the band; together with the invariance of C158 the band contains the posterior mean |
| C200 | the joint sampler with the running total of a quantity of parameters and table (`Spec.jointTotalMean`) | means over one iteration form a monotone, additive, mass-preserving operator; for any such operator whose iterates settle geometrically (C199) the mean and mean square of the total obey linear recursions, so the centred second moment grows linearly; a burn-in (`Spec.jointBurnedMean`) composes the same operator before the totals, thinning (`Spec.jointThinnedMean`) replaces it by its power, which is again such an operator |

Properties of the code which turn out false are kept with their full statement; the negation is proved with a
concrete witness and the true part is proved under a `_partial` name (see "Findings").

## Findings

Places where the code does not do what a user relies on. Those marked with a theorem are proved of the model.

Tables and moves
* `update_cell_constraints_deterministically` calls numpy's `sum` with the torch keyword `dim`: it raises whenever a constrained line has exactly one free cell (C17_inference_raises); this hides a double subtraction.
* The move generator keeps one random partner per cell, so the set of moves need not connect the tables (C05_not_connected). The complete generator and the cycle generator are commented out (MarkovBasis.py:661), and the latter stops at cycles of length 10 (C64_long_cycles_missed).
* The acceptance ratio for multinomial-type targets sums `log k!` instead of `log k` (C10_ratio_wrong), and a debugging print raises whenever a cell decreases to two or more (C10_raises_iff).
* Monte-Carlo initialisation misses the margins when cells are fixed (C14_fixed_cells_false); product-multinomial sampling misplaces columns and fixed cells (C13 negations).
* `update_proposal_type` compares (`==`) instead of assigning (C22_never_replaced); the fallback of the higher-degree proposal can propose negative cells (C07_fallback_can_go_negative).
* The early exit of maximum-entropy initialisation compares shapes and never fires; basis validity check and import are disabled; an imported basis is filtered only when some cell is fixed (C27); with no constrained axes the statistic is uninitialised memory; `true_markov_basis_length` builds a ragged array and raises.

Configuration and sweeps
* `path_find` removes the first (not the last) occurrence of a key from its path and shares a mutable default argument between calls (C31_repeated_key_wrong_path); the neural network's loss settings are all read from the first key's path (NN.py:381).
* `path_set` reports success without storing, or wipes siblings when overwriting (C29, C30); `path_modify` ignores the nested result (C66); `path_delete` shifts list elements and treats numeric strings as indices (C33); a stored text `not-found` reads as missing (C28_get_exact).
* `deep_delete`/`deep_update` skip lists, `deep_get` does not look below a match, `deep_flatten` loses colliding keys (C43, C65).
* Lengths of coupled sweeps are compared per last path component, so two sweeps over `file` are silently truncated (C38_files_not_checked); sweep identifiers depend on set order and omit the dataset and sigma (C37); grouping by a coupled parameter is ignored (C39); `slice_sweep` keeps values within ten per cent (C40); tuple values misalign columns (C35).
* Two classifications of the noise regime disagree exactly for 1/sqrt 5000 < sigma < 1/10 (C62_disagree_iff).
* `in_range` compares an exclusive upper bound with the lower limit (C41_exclusive_false); range strings go through float32 (C42_large_false), descending inclusive ranges stop two short (C42_descending_false), a plain number given as text raises (C42_plain_text_crashes).
* Schema checks: booleans are never checked (C88); `file-extension` is never enforced and `isfile`/`isdir` are ignored (C89); `allow-nan` disables the type check (C87_allow_nan_false); nested tables, nested lists' lengths and dictionaries in lists are not checked, nor uniqueness of custom lists (C90); missing scalars do not get their default (C91_default_false); `value-range` (23 uses) is read by no check; `Config.validate` shares the mutable default and the first-occurrence removal of `path_find`.
* Validation: with sweeps on, the default of a sweep without range is used unchecked (C100); the swept files of `margins` and `cells_subset` are both registered under the name 0, one is lost (C101); unknown keys are never reported, sweeps inside list elements raise when sweeps are off (C102); a failed check ends in `sys.exit()`, status 0 (C103); `theta_steps` and `destination_attraction_steps` are listed as sweeps but the schema forbids sweeping them (C98_shipped_unsweepable); isolated sweeps are registered even with sweeps off; an experiment override through a list is silently dropped (C104_through_list_false).

Execution and output
* A submission that raises keeps its permit, a bound of zero blocks for ever (C46); concurrent collection silently drops failing tasks (C47_failures); slots are claimed non-atomically, a full list maps to position 0 and a crashed job keeps its slot (C48); instance numbers restart per chunk (C45).
* Losses and `log_target` are never written (C50); the time attribute is wrong unless write_every divides a positive write_start (C51); a crash while writing leaves a truncated file that is never repaired (C52_truncated_stays); the HDF5 file is opened with mode `w` on resume; `define_sample_batch_sizes` is never called.

Spatial interaction and sampling
* The production-constrained flow reads the wrong cost rows with several sweeps (C67); one origin collapses the demand (C68); its potential normalises over the wrong axis (C69).
* The simulated noise is too small by sqrt(2 pi) (C93_noise_false).
* The degree-higher step clamps the odds ratio to [1e-6, 1e6] before drawing; beyond that the target is not invariant (C94_clamped_false).
* The degree-one step does not leave the target invariant: the factorials are dropped (C95_degree_one_false, C95_degree_one_exact).
* Direct sampling with both margins constrained ignores the intensities (C97_both_margins_false).
* Attraction updates evaluate data likelihood and gradients at the previous sample (C58, C73, C74); the table log-likelihood gradient has the wrong sign (C76); the joint sampler uses unscaled parameters in its table step (C73_scaling_false).
* The parameter walk multiplies by the covariance matrix itself (not a factor of it); with off-diagonal entries the reflected proposal is asymmetric (C92_correlated_false).
* Zero leapfrog steps raise when accepted; `unbiased_z` uses the wrong worker count; `z_inverse` ignores the step index.

Statistics and learning
* The truncated series contains a spurious last term (C78_false); the stopping time of a zero draw never ends (C77_zero_diverges); Poisson and Fisher likelihoods are not the log-probabilities (C80); the product-multinomial loss normalises columns and the normalised pmfs swap arguments (C81); signed variances can be negative (C82); SRMSE is inflated by the square root of the number of samples (C84).
* Hyperparameters from the configuration are ignored (C85); accumulated losses are reset after every element (C86); dictionary activation entries, `sigmoid` and `threshold` raise; negative layer numbers wrap (C61).
- C106: `gensit run` / `create` / `optimise` overwrite settings nobody asked to change: `n_threads` becomes null unless `--n_threads` is given (the shipped configurations say 6), `n_workers`, `norm`, `logging_mode`, `device`, `store_progress`, `sparse_margins` get the command-line defaults, `sample` the empty list; `create` also blanks `out_group`. An option whose setting is missing from the configuration is ignored silently, and an option overwrites every setting of its name at any depth.
- C107: of two experiments of the same type in a configuration only the last is run; without `-et` nothing is run and "Done" is reported.
- C109: surplus statistics (or dimensions) within a `&` group are dropped silently; repeating `--statistic` for one metric nests the second list instead of extending the first.
- C110: `Outputs.pop` deletes a local name, so the collection keeps its first group for ever; `del collection[i]` raises `TypeError`; `collection[j] = collection[i]` raises `InvalidDataNames` because of the attributes `logger` and `data_length`; iteration over a collection ends with `KeyError` (or never, without samples); `strip_data(keep_outputs, keep_collection_ids)` thins out the samples that were not to be kept and leaves the others complete.
- C111: groups read from the cache come back in reverse order (the constructor pops from the end), so a collection of which one sample was cached and another was not pairs groups of different sweeps; the cache is used whatever the burn-in, thinning, slicing or grouping settings; a sample of which at least one file was written before a crash counts as loaded; a file cut by a crash makes every load fail until `--force_reload`; a sample of which no array was collected raises `AttributeError` instead of `EmptyData`; with `slice` stored arrays are sliced twice.
- C112: with `pop` every metadata row is computed from the first group.
- C113: `inputs.dims` of the configuration is overwritten by the shapes of the files without a comparison; `destination_demand` has axis 1 in the schema, so that a vector raises `IndexError`.
- C114: with only `kappa` given, delta = kappa * min(W) and the balance fails; equal destinations give a division by zero; `delta` and `kappa` are set even if they are in `to_learn`. With more than one time step the sum runs over all times but N counts the destinations once.
- C115: masks take their shape from the order of the dictionary `dims`: declared as destination, origin they are transposed (or raise).
- C116: `torch.any` on a NumPy array: every margin file raises; margins by value are unchecked; `import_cells_subset` allocates a table whose shape are the *names* of the dimensions, and its `for … else` would raise in any case.
- C117: `receive_from_device` forgets `destination_demand`, `adjacency_matrix` and the region features, which stay tensors; a second `pass_to_device` then raises. Region features are never moved to the device. `origin_attraction_ts` is reshaped to one value per origin.
- C118: `copy(datasets=[])` copies everything; `copy` of a list without `dims` loses the dimensions.
- C119: `cast_from_xarray` converts everything to `int32`: destination sizes given as shares become 0. Called without arguments (as `Outputs` does before instantiating a table or a model) it raises unless all five lists of cells are configured, of which the configuration schema knows three.
- C120: `np.random.uniform(dtype=…)` raises; `sde_potential` stores only the last `time` destinations; the table is reshaped to all dimensions including time; the folder name depends on a left-over loop variable.
- C121: the running maximum of R² starts at 0, so with no positive R² the stored prediction is the constant fallback; a failed optimisation is NaN in the grid and `np.argmax` returns it; the solver runs with unscaled beta although `fitted_scaled_beta` is reported; `theta_sample[0]`, `[1]` are assigned by position; the grid has the shape of the declaration order of `grid_ranges`.
- C122: `fitted_beta`/`fitted_scaled_beta` have the opposite meaning of those of RSquared_Analysis.
- C123: `run` does not pass `free_parameters` to `run_single`, so learned kappa, delta, epsilon or sigma raise.
- C124: in `evaluate_expressions` a repeated operation name is not evaluated again and gets the value of the previous operation; outside sweeps each plain (non-array) value discards what was gathered before; a plain value before the first swept one makes a row that belongs to no setting, a labelled array there is dropped; an operation named like a sweep key collapses rows.
- C125: asking for a swept metadata key raises KeyError; no expression (or none that works) raises; one failing member or empty folder aborts the summary of every folder.
- C126: `dt+'*'` in the folder pattern repeats the last character of the date rather than allowing any text, so folders of other dates match; `exclude` is a tuple, so every exclusion raises TypeError; without a data set name nothing is found.
- C127: `len(date_strings) > 4` tests the joined string, so each single date becomes `multiple_dates` and summaries of different dates replace each other; several directories or different groups share a file.
- C128: `get_sample('beta')` multiplies by `bmax`, but the joint table sampler and the neural network experiments use the unscaled parameter, so the intensity read back is another one unless `bmax = 1` (or costs are constant or beta is 0); neural network experiments store the attractions after the step, their intensity is at the observed ones; a missing or doubled parameter ends the program while the intensity is read.
- C129: a missing comma in `EXPERIMENT_OUTPUT_NAMES["SIM_MCMC"]` joins `compute_time` and `theta_acc`, neither is stored; `log_target` has a dataset that is never written; `epsilon` and `bmax` can be learned by the model but raise KeyError when datasets are created; comparison experiments with a spatial interaction model in the configuration do not load their stored intensity.
- C130: `load_h5_data` keeps one extent per dimension for all datasets it reads, so datasets with different numbers of rows raise `ValueError` together: `log_target` (never written), `total_loss` (never written), parameters with `theta_steps` ≠ 1. The iteration coordinate numbers rows from 1 and is the iteration only if `write_start ≤ 1` and `write_every = 1`. Sweeps over settings missing from `COORDINATES_DTYPES` (`epsilon`, `dt`, `theta_steps`) raise `KeyError`.
- C132: an object mention that is not directly followed by a dot is missed and takes the next one with it; `physics_model` requires `sim`, which nothing builds, and uses `intensity_model` without requiring it; `write_start = 0 **kwargs` (missing comma) means `learning_model` is never built, and the attempt pops `loss` from the configuration.
- C133: conditions on coordinates are silently ignored without sweeps, for settings that are not sweepable, or for samples without the coordinate; a name outside the schema (e.g. `iter`) makes opening the outputs raise; conditions over two coordinates introduce missing values; conditions without the `burnin_thinning_trimming` setting drop every sample.
- C134: features of origins are looked up among the destination features (`origin_region_features` is never used): with more origins than destinations indexing fails; forest, boosting and network put zero, not NaN, in cells that are neither trained nor evaluated.
- C135: gradient boosting stores the predictions of single trees (fits of residuals), not the initial prediction plus the rate times the sum.
- C136: `(n,1) - (n,)` broadcasts, so the trip loss is smallest for the constant mean and ignores which count belongs to which cell; the flow targets contain the square root of the region's number; totals include held-out cells; at 20000 rows the loss jumps by a factor.
- C137: adjacent regions with cost zero lose their edge; regions without incoming edge get embedding zero whatever their features; the `lambda_` weights are computed and not used. Assumed of DGL: rows without message are zero, a graph without edges yields no field `h`.
- C138: `GAT_Model` has no attribute `num_regions`, so every rate of negative sampling other than zero fails; a negative batch size trains on nothing, silently.
- C139: a constant feature column (or a single region) becomes NaN, and with it every prediction of the network.
- C140: a sweep is found by its name only: of two uncoupled sweeps with the same name the later wins; a coupled target is registered at the first path where its name occurs, which need not be the swept one; a coupled sweep whose target is misspelt disappears silently; a sweep inside a list raises.
- C141: `plot_sett` is one dictionary updated for each record, so a record that lacks a key repeats the previous record's value; with `by_experiment` only the last record of a folder is plotted.
- C142: `np.lexsort` takes its last key as the primary one, and `asc` negates the value while `zorder` counts down, so larger values are drawn on top for `asc`.
- C143: an empty combination of row and column group raises a `KeyError` at the end of the figure.
- C144: giving only one of the two limits does not fix it; Python's `min` with a NaN first keeps the NaN.
- C145: repeated major labels sit under their records only if minor step = number of major entries times major step; steps of zero and missing pairs end the program.
- C146: `Inputs` reads `dt` from the `parameters` dictionaries, but the schema and all shipped configurations put it at `harris_wilson_model.dt`; so the default 0.001 is always used and `update_hyperparameters` writes it over the configured value, which the training loops then read. `HarrisWilson` has no method `path_get` and plain defaults have no method `to`, so both fall-backs raise.
- C147: the value is written at the first place where the name occurs in the settings, wherever that is.
- C148: the time stamp has a resolution of one second and the data file is opened with mode `w`: two runs of the same type, title and noise level started in one second share the folder, and the second deletes the data of the first.
- C149: the date pattern is searched from the left and accepts 2-4 digits for the year: with a title such as `1_2_33` the search for folders raises for everybody, with `1_1_2020_1_1` another time is read.
- C150: with two constant samples of different means the function for samples reports p = 0 and rejects; the function for summaries reports p = nan and does not reject (numpy numbers) or raises ZeroDivisionError (Python numbers).
- C151: because the generated basis may leave the set of tables with given margins disconnected (C05), the long-run averages then depend on the initial table and differ from the target.
- C152: `Gamma(gamma*(delta+1/J), 1/(gamma*kappa))` passes a scale where torch expects a rate, so the annealer does not start from its prior unless 2κ/σ² = 1 and the estimate of the normalising constant is biased.
- C153: the Laplace value is exact only for quadratic potentials; `method='L-BFGS-B'` is never handed to scipy's `minimize` by `torch_optimize`; a failed optimisation returns None and the caller then raises.
- C154: the stopping-times cache is keyed by the number only, so a file of another seed is reused; `k_power` is hard-coded; a file with one number cannot be reloaded (`len` of a 0-d array); a longer user-named file is overwritten; one stopping time serves all parameter steps of an iteration, and N*M are loaded although only the first N are used.
- C155: with `mcmc_workers` > 1 the debug message of `unbiased_z_inverse` reads `self.n_workers`, which does not exist, so every estimate raises; because of the spurious last term of C78 the returned value has an infinite mean over the stopping time; `imap_unordered` would make the value depend on the completion order of the workers.
- C156: the pseudo-marginal argument behind the high-noise sampler is right for independent draws with mean 1/z; C154 and C155 show that the code's draws are neither.
- C157: `log_destination_attraction_gibbs_step` evaluates the data likelihood and its gradient at the previous sample throughout the trajectory, so the proposal is neither volume preserving nor reversible and the acceptance ignores the data; the chain does not have the posterior as invariant law (C157_false).
- C158: `JointTableSIM_MCMC.run` computes the intensity for the table steps from the unscaled theta (experiments.py:1741-1745) whereas the theta steps use `beta * bmax`; with bmax other than 1 the two conditionals do not belong to one joint law.
- C159: `theta[1] *= bmax`, the two-entry random walk and the grid search go by position, the potential goes by name: with `to_learn = ['beta','alpha']` the scaling is applied to alpha (C159_false), with one or three names MCMC raises.
- C160: `JointTableSIM_NN.run` passes `intensity = torch.exp(log_intensity_sample)` (experiments.py:2680) where a list of samples is expected; `len` is the number of origins and each row is broadcast over the cost matrix, so the `total_intensity_distance` losses are invariant under exchanging origins. The shipped `configs/cambridge/experiment3_joint.toml` uses them.
- C161: `total_table_distance_loss` and its likelihood variant have no gradient with respect to the network; the shipped sweep that configures them alone trains nothing (C161_no_learning).
- C162: `log_poisson_pmf_unnormalised` subtracts the sum of *log* intensities instead of the sum of intensities; as a loss on normalised intensities it is unbounded below (C162_poisson_unbounded). The Fisher form compares with odds ratios whose minimum is not at the table (C162_fisher_false).
- C163: `study.optimize(experiment.run, n_jobs = n_workers)` runs trials of one experiment object in threads; `self.learning_model` is shared, so the trials that run together all train the model built last (C163_several_workers).
- C164: a table with unknown cells (-1) is overwritten by an all -1 table (`import_tabular_data`), known cells are lost, fixed cells then ask for -1 and the residual margins grow by one per fixed cell (library use only: `Inputs` refuses negative tables).
- C165: `update_table` and `update_margins` store the margins themselves as residual margins, ignoring fixed cells.
- C166: `sample_margins_2way_table` draws row and column margins for the stored total although a new total was sampled.
- C167: `update_table_initialisation_solver` ignores its argument; `--table0` offers two solvers that do not exist and `monte_carlo_sample`, which the schema refuses; `random_sample`, which the schema admits, raises whenever a margin is constrained; `table_import` cannot return.
- C168: `ContingencyTable.__eq__` compares the number of dimensions, not the sizes; a basis of a smaller table is accepted.
- C169: `trim_sweep_configurations` passes the dictionary of sweep parameters as the configuration (KeyError) and reads `self.outputs_path`, which a `Config` does not have; its result would replace `self.outputs.config` rather than the configurations; the three file checks all test `outputs.log`; `load_config` swallows every exception, so a mistyped path silently starts a new full sweep.
- C170: `relative_l_1` divides by `np.min(ground_truth,1)`, the minimum over the second axis, where `np.maximum(ground_truth,1)` was meant: residuals are overstated by the ratio of the cell to the smallest cell of the row, and a single zero makes the row infinite. `sparsity` returns one number for all samples although a value per sample is declared.
- C171: `validate_samples` reads the last stored row after every step, so with `write_start` or `write_every` above one it raises before anything is stored.
- C172: `ExperimentHandler` runs all constructors first and the runs after; network and comparison experiments set the seed only in the constructor, so several of them in one call start from generators left by the last constructor or the previous run. `set_seed(None)` resets nothing: unseeded forked sweep workers start from copies of the same generators and draw identical numbers. `SIM_MCMC` and `JointTableSIM_MCMC` seed again with the same seed for stopping times and chain, so both use the same random numbers.
- C173: `show_progress` takes the integer part of the mean of the stored acceptances; with `write_start` or `write_every` above one nothing is stored after the first step and `SIM_MCMC` and `JointTableSIM_MCMC` abort with a ValueError. `SIM_MCMC` never reports the parameters' acceptance (the missing comma of C129).
- C174: `Table_MCMC.run` never advances the clock `write_data` tests: with `write_start` or `write_every` above one no table is ever stored.
- C175: `CustomFileHandler.emit` only appends to memory and `flush` does nothing, so a killed run leaves no log; a sweep uses one handler for all members: each log starts with the last messages of the member before, a failing member's messages go to the worker's next member, forked workers start with a copy of the main process's messages and their last messages are in no file. Without a sweep no level is set and only warnings and above are recorded.
- C176: `xr_apply_and_combine_wrapper` raises for any coupled argument (`.values` is not called), its third branch repeats the second's condition, its conflict check compares argument names with function names, and `xr_islice` raises when `end` is None (the two branches of the conditional are swapped).
- C177: `xr_apply_by_group` overwrites `sweeped_kwargs` with the arguments of the first group; its labels are off by one for dimensions outside the sweep, and its flag `apply_ufunc` is inverted.
- C178: `coordinate_parse` drops the third and later uses of `-x`, `-y`, `-z`; `--margins` (`OptionEatAll` with type STRING) hands over `str(tuple)` and takes a following configuration path as a margin.
- C179: `chi_squared_distance` passes arguments its parts do not accept and raises TypeError on every input; the row distance weights by the first table's column sums only, so it is not symmetric.
- C180: `relative_l_1` divides by the minimum of the true values along axis 1; a zero anywhere in a row makes the whole row NaN. `relative_l_0` and `markov_basis_distance` raise on every input.
- C181: `multinomial_mode` draws a random vector where Le Gall's algorithm uses the fractional parts, so its result need not be a mode.
- C182: `negative_destination_attraction_log_likelihood_and_gradient` ignores its `noise_percentage`; the samplers pass the inverse of the configured percentage, which therefore has no effect.
- C183: with `delta = 0`, the schema's default, the density exp(-potential) has infinite mass for two or more destinations: the annealed estimates of its normalising constant estimate nothing.
- C184: the name of a figure's files depends on title, slices and style options only; figures of other variables, groups or folders overwrite each other. Format `dat` raises on every figure (`dtypes` is a tuple), `txt` stores no data, `csv` raises unless all lists have one length, which they have not without groups.
- C185: unset features are stored as `null` and read back as such: the default colour black becomes matplotlib's own, a missing marker size raises `TypeError`. Only the first file found is drawn; more than one `--plot_data_dir` always raises.
- C186: panels of column groups are all labelled with the first group; `x_scale` is applied to the y-axis; the ticks of the y-axis stop at the end of the x-axis (`f"get_{var}lim()"` names no attribute).
- C187: the legend is put in the last panel whatever `legend_axis` says; `plot_wrapper` looks up `line_style` and `line_width`, which are handed over as `linestyle` and `linewidth`.
- C188: for `alpha > 1` the noise-free dynamics has several resting points and the potential several stationary points, one of which is no minimum (`C188_false`, with equal costs, two destinations, `alpha = 2`, `delta = 2/5`); there `torch.linalg.cholesky` raises, and which minimum `biased_z_inverse` expands at depends on the starts. The parameter update keeps `alpha` below 2, not below 1.
- C189: `export_samples` and `export_metadata` are optional (default true) and a single run treats them so, but `ExperimentSweep.__init__` reads `config['experiments'][0]['export_samples']` without default (`experiments.py:3650-3651`): leaving either out makes every sweep raise `KeyError` (`C189_missing`). `open_output_file` looks for the switch anywhere in the settings, everything else in the experiment only: given twice with different values either an empty `data.h5` replaces an older one (`C189_twice_false`) or the experiment raises (`C189_twice_raises`).
- C190: `stringify` rounds numbers above 100 to one digit under scientific notation (`{:.0e}`), so with `--x_scientific` the entries 120 and 140 of a discrete axis are one tick at one position, and two groups of subplots one panel (`C190_scientific_false`); it flattens nested lists without brackets, does not quote commas, and writes `None`, `''`, `[]` and `'none'` alike (`C190_false`).
- C191: with one origin and several destinations every simulated step raises: `squeeze` drops the origin dimension, `logsumexp(dim=0)` then sums over the destinations and `reshape` fails (`C191_single_origin_false`). The production-constrained potential used by the MCMC samplers is stationary where `kappa`·attraction of destination *j* is the demand of *origin* *j* plus `delta`, whatever the costs, so sampler and simulation describe different equilibria (`C191_coded_false`).
- C192: the noise-free simulation need not settle for large `dt`: with `kappa = delta = epsilon = 1` and `dt = 5/3` a destination alternates between 4/5 and 12/5 (`C192_false`).
- C193: `latex_it` tidies `str()` (the empty text) instead of the value, so every text without a listed expression is shown as '' — all such coordinates, groups and labels coincide (`C193_false`). `sigma` as a coordinate or group becomes its noise regime, so a sweep over sigma collapses to two or three points (`C193_sigma_false`). A numeric value of a label key raises `TypeError` in `join` (`C193_label_number_false`).
- C194: the setting itself goes through `eval`, so `--marker type`, `--hatch type` and `--colour type` become the Python class `type`: the tables for `type` are never used and every record gets the text `<class 'type'>` (`C194_object_false`). `PLOT_LINESTYLES` is empty, so any metadata key as line style raises `KeyError` (`C194_line_style_false`).
- C195: `evaluate_expressions` reads the swept values with `get_value`, which replaces `sigma` by its noise regime, so e.g. the settings sigma = 0.1 and sigma = 0.2 have the same id; the row of the first is overwritten with the value of the second (`C195_sigma_false`).
- C196: with `step_size` or a row of `covariance` equal to 0 the walk has no density and the guarantee is lost; with all zero the parameters never move (`C196_still`). The configuration schema admits zero entries of `covariance`.
- C197: no violation found; as in C196 the guarantee needs steps with a density and a normalising constant that is a function of the parameters.
- C198: where the generated basis does not connect all tables with the given margins (C05, C151), averages of samples converge to means over the connected tables only.
- C199: holds for scaling factor one only; otherwise the table is drawn at the unscaled parameters and the law of parameters and table does not approach the joint posterior (C199_false).
- C200: as C199, for scaling factor one only.

## Axioms per theorem

<!-- axioms -->

* **no axioms** (12): C38_files_not_checked, C43_get_misses_nested, C48_full_false, C48_race_false, C110_setitem_atomic_false, C120_name_false, C141_by_experiment_false, C141_failed_folder_false, C141_misaligned_false, C141_stale_false, C169_check_false, C177_single

* **propext** (53): C13_fixed_cells_clobbered, C30_true_without_storing, C41_exclusive_false, C41_missing, C43_delete_skips_lists, C43_update_skips_nested_lists, C46_zero_false, C50_known_samples, C50_unlisted_false, C52_leaves_file, C52_never_overwritten, C52_truncated_stays, C61_negative_false, C65_flatten_collision, C107_same_type_false, C110_assign_row_false, C117_pass_idempotent, C118_empty_request_false, C120_name_last_key, C120_table, C120_uniform_rejected, C124_extra_row, C124_named_like_key, C124_repeat_stale, C126_given_path, C129_sim_mcmc_lost, C133_applied_false, C133_needs_index_setting, C138_negatives, C144_given, C147_list_false, C147_other_setting_false, C147_trial_false, C169_check_iff, C169_not_asked, C169_resume_raises, C169_unreadable_restarts, C172_same_seed_false, C172_seeded, C172_single, C172_stopping_reused, C172_unseeded_false, C174_exact, C175_exact, C175_killed_false, C175_killed_nothing, C175_levels, C176_conflict_false, C176_coupled_raises, C177_three_raise, C178_btt, C178_exclusive, C178_third_dropped

* **Quot.sound** (1): C177_second

* **Quot.sound, propext** (85): C34_merge_keys, C34_merge_total, C34_merge_values, C43_delete_partial, C43_get_outermost_partial, C43_update_partial, C44_sparse_dict, C47_sequential, C48_crash_leaks_false, C49_each_dimension_once, C49_never_empty, C51_time_false, C53_partition, C59_coverage, C65_flatten, C85_config_ignored, C85_config_overwritten, C85_false, C85_trial_partial, C98_flags, C98_shipped_described, C107_untyped_fails, C109_distinct_metrics_partial, C109_group_size, C109_read_back, C109_refused, C110_del_false, C110_delitem_names, C110_strip_both_false, C110_strip_partial, C110_strip_positions, C111_collected, C111_force, C111_nothing_collected_false, C112_rows, C120_name, C120_potential_stored_false, C126_given, C129_loaded, C129_stored_loaded, C130_loads_iff, C130_sweep_names_false, C130_unknown_sweep, C132_found_partial, C132_learning_loss, C132_name_iff, C132_own_word, C133_conditions, C133_missing_false, C133_single, C134_held_out, C134_missing_iff, C134_runs_iff, C134_stored, C138_runs_iff, C143_missing_group, C144_which_limits, C146_builds_iff, C147_others_unchanged_partial, C154_independent_false, C159_fixed_wins, C159_grid_swapped, C160_variance, C160_variance_tensor, C163_several_workers, C169_lookup_fails, C172_sweep_concurrent, C172_sweep_sequential, C172_together_exact, C172_together_false, C172_together_partial, C172_unseeded_copies, C173_not_exported, C175_failed_member, C175_failed_single, C175_forked, C175_killed, C175_single, C175_sweep_exact, C176_false, C176_result_partial, C178_split, C187_asked_iff, C187_last_panel, C189_premises

* **Classical.choice, Quot.sound, propext** (912): C01_one_margin_moves_cols, C01_one_margin_moves_rows, C02_both_margin_moves, C03_cols_complete, C03_length, C03_rows_complete, C04_connected_cols, C04_connected_rows, C05_connected_two_by_two_partial, C05_lattice_connected_partial, C05_not_connected, C06_degree_one_step, C07_degree_higher_step, C07_fallback_can_go_negative, C08_chain_invariant, C09_step_size_support, C100_checked_on_partial, C100_checked_partial, C100_default_unchecked_false, C101_coupled_entries, C101_coupled_members, C101_registered_partial, C101_same_name_false, C101_target_required, C102_list_sweep_rejected, C102_unknown_key_false, C102_unlisted_ignored, C103_bad_value_exits_with_zero, C104_removed, C104_schema, C104_shipped, C104_through_list_false, C104_unknown_override, C105_accepted, C105_excluded_ignored, C105_one_experiment, C105_unknown_type, C106_file_values_kept_false, C106_given_option_stored, C106_no_new_settings, C106_rest_unchanged, C106_unasked_overwritten, C107_exact, C107_nothing_requested, C107_requested_partial, C108_always_trimmed, C108_key_value, C108_name_only, C108_samples, C109_metric_entries, C109_repeated_metric_false, C109_silently_shortened_false, C10_acceptance, C10_exact, C10_log_ratio_partial, C10_raises_iff, C10_ratio_wrong, C110_getitem, C110_getitem_negative, C110_iteration_false, C110_len, C110_len_getitem, C110_pop_false, C110_setitem_effect, C110_setitem_empty_false, C110_setitem_succeeds, C111_cached_load_partial, C111_crash_false, C111_crash_partial, C111_first_load, C111_groups_kept_apart, C111_mixed_false, C111_resliced_partial, C111_settings_false, C111_split, C111_torn, C111_writes_new_files, C112_every_group_once_partial, C112_pop_false, C113_conflict_rejected, C113_content, C113_declared_dims_false, C113_destination_demand_vector, C113_dims_agree, C113_missing_rejected, C113_negative_rejected, C114_balanced_false, C114_both_given, C114_delta_given, C114_equal_zones, C114_kappa_given, C114_learned_absent_false, C114_neither_given, C114_precedence, C115_declared_order_false, C115_default_test, C115_mask, C115_missing_file, C116_cells_never_used, C116_margin_file_false, C116_margin_file_rejected, C116_margin_values_partial, C116_value_sign_false, C117_features_not_moved, C117_origin_series_rejected, C117_pass, C117_pass_numpy_only, C117_roundtrip_false, C117_roundtrip_partial, C117_unnamed_stays, C118_copy, C118_copy_all, C119_default_request_false, C119_from_xarray, C119_order_irrelevant, C119_roundtrip_false, C119_roundtrip_partial, C119_to_xarray, C119_to_xarray_succeeds, C11_direct_sampling_admissible, C11_direct_sampling_returns, C120_cost, C120_potential_minimum, C120_potential_stored, C120_shares, C120_shares_exist, C120_solver, C120_total_cost, C121_declared_order, C121_failed_point, C121_maximum, C121_no_positive_score, C121_prediction_false, C121_prediction_partial, C121_score, C121_solver_scale_false, C121_succeeds, C121_swapped_names, C122_maximum, C122_same_meaning_false, C122_scales, C122_succeeds, C123_equilibrium, C123_final, C123_learned_in_run, C123_parameters, C123_positive, C123_restart, C123_run_learned_false, C123_series, C123_zero_absorbing, C124_first_definition, C124_index_ignored, C124_raw_keywords, C124_repeat_harmless_false, C124_table, C124_unswept, C124_unswept_arrays, C124_unswept_false, C124_value_in_every_row_false, C125_collection, C125_no_expressions, C125_records, C125_succeeds, C125_swept_key_false, C125_values, C126_complete, C126_date_false, C126_exclude_rejected, C126_found, C126_no_dataset, C126_order_irrelevant, C126_sorted, C126_succeeds, C127_dates_collide, C127_directories_collide, C127_ending, C127_group_collides, C127_kept_false, C127_written, C128_agree_iff, C128_beta, C128_intensity, C128_intensity_exit, C128_mcmc_steps, C128_missing_false, C128_missing_input, C128_nn_false, C128_nn_iff, C128_sources, C128_tables_false, C128_tables_iff, C128_tables_partial, C129_learnable_false, C129_learnable_partial, C129_log_target_empty, C129_stored_intensity_false, C12_multinomial_total, C130_dims, C130_iteration_false, C130_iteration_iff, C130_loads_partial, C130_log_target_false, C130_loss_false, C130_rows_fail, C130_run_partial, C130_steps_false, C131_dims, C131_other_coords, C131_succeeds_iff, C131_unswept, C131_values, C132_available_partial, C132_built_partial, C132_found_false, C132_learning_never, C132_physics_false, C132_physics_iff, C133_order, C133_run, C133_where, C134_covariates, C134_missing_false, C134_runs_false, C135_boosted, C135_boosted_false, C135_forest, C135_stage_iff, C136_edge_false, C136_edge_loss, C136_edge_minimiser, C136_edge_partial, C136_edge_shuffled, C136_flow_false, C136_flow_minimiser, C136_held_out_false, C136_held_out_partial, C136_limit, C136_weights, C137_combination_false, C137_edge_false, C137_edge_iff, C137_isolated, C137_isolated_prediction, C137_layer, C137_local, C137_nonneg, C137_renamed, C137_runs_iff, C137_weights, C138_epoch, C138_full_batch, C138_negative_false, C138_negative_size, C138_negatives_false, C139_minmax, C139_minmax_false, C139_minmax_lost, C139_standard, C139_standard_false, C139_standard_lost, C139_units, C13_columns_misplaced, C13_rows_partial, C140_chain_duplicates_false, C140_coupled_found_partial, C140_coupled_sound, C140_empty_range_false, C140_file_target_false, C140_isolated_found_partial, C140_isolated_sound, C140_list_raises_false, C140_missing_target_false, C140_names_complete_partial, C140_names_sound, C140_same_name_false, C140_succeeds_iff, C140_target_path_false, C140_target_path_partial, C141_all_records_partial, C141_by_experiment, C141_exact, C141_stale_value, C142_above_iff, C142_direction_false, C142_last_variable_first, C142_one_variable, C142_permutation, C142_primary_false, C143_completes_false, C143_completes_iff, C143_same_subplot_iff, C143_two_variables, C144_contains_partial, C144_nan_false, C144_one_sided_false, C144_one_sided_iff, C145_default_exits, C145_distinct_false, C145_distinct_partial, C145_exits_iff, C145_labelled_iff, C145_major_entry_only, C145_major_only, C145_minor_within_iff, C145_none_entry_false, C146_configured, C146_delta_kappa, C146_learned, C146_settings_only_false, C146_step_false, C146_step_ignored, C146_training_step, C146_training_step_trial, C146_trial, C147_recorded_partial, C148_different_times, C148_different_types, C148_identifies, C148_kept, C148_kept_false, C148_noise, C149_order_partial, C149_time_false, C149_time_partial, C149_unreadable, C149_unreadable_made, C14_fixed_cells, C14_fixed_cells_false, C14_monte_carlo, C150_agree_false, C150_agree_partial, C150_constant, C150_degrees, C150_direction, C150_one_tailed, C150_refused, C150_swap, C150_unit, C151_connected_partial, C151_converges_partial, C151_false, C151_reachable_finite, C151_sample_mean, C151_two_by_two, C152_start_iff, C152_step_invariant, C152_two_temperatures_partial, C152_unbiased_false, C152_unbiased_partial, C152_unit_rate_partial, C153_compare_partial, C153_exact_false, C153_exact_quadratic_partial, C153_log_density_partial, C153_starts, C153_value, C154_count, C154_fresh_partial, C154_in_range, C154_independent_partial, C154_own_seed_false, C154_power_false, C154_reload, C154_repeat_false, C154_use, C154_user_file_false, C155_limit_partial, C155_mean_infinite_false, C155_order_false, C155_order_partial, C155_truncated_mean, C155_value, C155_workers_false, C156_signed_average, C156_stationary, C156_stationary_given_table, C156_unsigned_false, C157_annealer_step_partial, C157_false, C157_given_table_false, C157_given_table_ratio, C157_given_table_uninformative_partial, C157_uninformative_partial, C158_invariant_partial, C158_one_iteration, C158_rows_partial, C158_scaling_false, C158_total_partial, C159_alpha_beta_partial, C159_false, C159_grid_iff, C159_joint_names, C159_joint_start, C159_joint_start_false, C159_sampler_iff, C159_training, C159_two_parameters, C159_written, C15_max_entropy, C15_returned_admissible, C160_accumulate, C160_cost_mean, C160_intensity_exchanged, C160_intensity_false, C160_intensity_rows, C160_mean, C160_order, C160_raises_iff, C160_table_distance, C161_compared, C161_false, C161_gradient, C161_last_table, C161_no_learning, C161_single_partial, C161_table_distance_ignored, C162_fisher_false, C162_poisson_false, C162_poisson_unbounded, C162_rows, C162_total, C163_isolated, C163_one_worker_partial, C163_one_worker_value_partial, C163_several_workers_false, C164_false, C164_full, C164_margins, C164_partial_forgotten, C164_partial_residual, C164_refused_iff, C165_false, C165_from_table, C165_margins, C165_only_asked, C165_table_iff, C165_table_partial, C165_wrong_total, C166_false, C166_given_total_partial, C166_initialised, C166_sampled_iff, C167_admissible, C167_choices_false, C167_default_starts, C167_refused, C167_solver_ignored, C167_unconstrained, C168_accepted_iff, C168_false, C168_outside_fixed, C169_false, C169_resumed_iff, C16_residual_margins, C170_false, C170_margin, C170_margin_seeds, C170_margin_undefined, C170_overstated, C170_relative_exact, C170_relative_iff, C170_sparsity, C170_sparsity_false, C170_sparsity_range, C170_zero_line, C171_accepts_iff, C171_complete_iff_partial, C171_completed, C171_false, C171_late_start, C173_completes_iff, C173_reported, C173_sim_theta_false, C173_thinned_aborts, C174_false, C174_on_schedule_iff, C175_sweep_false, C176_completes_iff, C176_islice, C176_overridden, C177_false, C177_label_other, C177_label_sweep, C178_coordinates, C178_dict, C178_margins_false, C178_margins_swallow, C178_margins_text, C178_margins_values, C178_minor_only, C178_third_false, C179_both_false, C179_both_raises, C179_separates, C179_symmetric, C179_symmetric_false, C179_transpose, C179_value, C179_zero_iff, C17_inference_raises, C17_no_single_unknown_partial, C17_single_unknown_is_forced, C180_absolute, C180_denominator, C180_exact, C180_false, C180_own_value, C180_zero_row, C181_counts, C181_false, C181_first_guess, C181_le_gall, C182_argument_ignored, C182_degenerate, C182_gradient, C182_likelihood, C182_loss, C182_same_false, C182_scale, C183_exists, C183_false, C183_iff, C183_infinite, C183_prior, C183_production, C184_by_experiment, C184_csv_ungrouped, C184_false, C184_formats, C184_kept, C184_replaced, C184_shared_directory, C184_slices, C185_absent, C185_colour, C185_complete, C185_directories, C185_false, C185_first_only, C185_harmless, C185_marker_size, C186_label_false, C186_labels, C186_rows, C186_scale_false, C186_scales, C186_tick_false, C186_ticks, C186_x_scale, C186_x_ticks, C186_y_scale, C187_columns, C187_legend, C187_line_false, C187_lines, C187_place_false, C188_cholesky, C188_exists, C188_false, C188_hessian, C188_minimum, C188_positive, C188_saddle, C188_unique, C189_missing, C189_missing_false, C189_run, C189_sweep, C189_sweep_run, C189_twice_false, C189_twice_raises, C18_inference_idempotent, C18_inferred_axes_are_the_closure, C190_false, C190_ids, C190_labels, C190_scientific, C190_scientific_false, C190_scientific_shared, C190_sweep_ids, C191_coded, C191_coded_false, C191_demand, C191_exists, C191_false, C191_minimum, C191_single_origin_false, C191_total, C191_unique, C192_false, C192_production, C192_total, C193_false, C193_group_iff, C193_label_iff, C193_label_number_false, C193_label_sigma_iff, C193_label_text, C193_missing, C193_numbers, C193_sigma_false, C193_sigma_iff, C193_text, C193_text_iff, C193_titles_false, C194_annotate, C194_line_style_false, C194_literal, C194_nothing, C194_object_false, C194_regime, C194_regime_iff, C194_sizes, C194_sizes_text, C194_table_iff, C194_title, C194_title_false, C194_titles_apart, C195_rows_iff, C195_settings, C195_sigma_false, C196_converges, C196_converges_given_table, C196_exact, C196_forgets, C196_limit, C196_normal_walk, C196_still, C197_burnin, C197_consistent, C197_exact, C197_mean_square, C197_mean_square_given_table, C197_misses, C198_burnin_partial, C198_consistent_partial, C198_false, C198_mean_square_partial, C198_misses_partial, C198_two_by_two, C199_converges_partial, C199_false, C199_forgets_partial, C199_rows_partial, C199_total_partial, C19_axes_partition, C19_same_length_complement, C200_burnin_partial, C200_consistent_partial, C200_mean_square_partial, C200_misses_partial, C200_rows_partial, C200_thinning_partial, C200_total_partial, C20_table_admissible_iff, C21_distribution_name, C22_fisher_partial, C22_never_replaced, C23_margins_from_table, C24_cycle_moves, C25_canonical_form, C25_no_repeats, C26_constraint_table, C27_import_filters, C27_unfiltered_without_fixed_cells, C27_update_filters, C28_get_exact, C28_set_then_get, C28_set_then_get_plain, C29_frame_partial, C29_overwrite_loses_siblings, C30_success_partial, C31_default_argument_accumulates, C31_find_exact_partial, C31_find_up_to_order_partial, C31_repeated_key_wrong_path, C32_exists_iff_found, C33_delete_missing, C33_delete_partial, C33_list_deletion_shifts, C33_numeric_key_not_deleted, C33_numeric_strings_are_indices, C35_no_duplicates, C35_product, C35_rows_kept, C35_tuple_values_misaligned, C36_experiment_config, C37_dataset_not_recorded, C37_distinct_ids_partial, C37_order_dependent, C37_order_independent_partial, C37_sigma_collides, C38_equal_lengths_accepted, C38_lengths_checked_partial, C39_coupled_group_by_ignored, C39_group_by_respected_partial, C39_partition, C40_keeps_different_values, C40_slice_filters_partial, C41_exclusive_partial, C41_inclusive_partial, C42_colons_partial, C42_descending_false, C42_large_false, C42_list_failures, C42_list_partial, C42_missing_component, C42_negative_repeat, C42_not_a_number, C42_pair_partial, C42_plain_text_crashes, C42_repeat_partial, C42_step_partial, C43_delete_then_get_partial, C44_dict_roundtrip, C44_pair_roundtrip, C44_text_roundtrip, C44_text_shape, C44_vector, C45_chunks, C45_each_once, C46_bound, C46_conservation_partial, C46_leak_false, C46_order, C46_progress_partial, C47_failures, C47_permutation, C48_first_free, C48_serial_partial, C49_indices, C49_kept_coordinates, C49_one_slice, C50_count_partial, C50_epochs_partial, C50_loss_false, C50_one_per_iteration_partial, C50_rows_partial, C51_time_partial, C53_groups_differ, C54_batches, C55_grand_total, C55_positive, C55_row_total, C56_positive, C56_total, C57_box, C57_box_given_table, C57_flag, C57_history, C57_joint_history, C57_outside_rejected, C58_accept_probability, C58_ais_step, C58_attraction_false, C58_attraction_frozen, C58_bijective, C58_detailed_balance, C58_ratio_antisymmetric, C58_reversible, C58_volume_preserving, C59_hpd, C59_raises, C60_shortest, C60_symm, C60_triangle, C60_zero_iff, C61_activation_dict_raises, C61_activation_names, C61_activation_unknown, C61_activations, C61_architecture, C61_bias, C61_layers, C61_overrides_partial, C61_raises_iff, C61_sigmoid_false, C62_disagree_iff, C62_model_regime, C62_regime_other, C62_regime_partial, C62_two_classifications_disagree, C63_cycle_search_exact, C64_cycle_basis_connects_partial, C64_long_cycles_missed, C66_modify_missing, C66_modify_stores, C66_modify_through_list, C66_modify_true_without_storing, C66_update_stores, C67_production_batch_false, C67_production_partial, C67_production_reads_row, C67_totally_batch, C68_demand_partial, C68_demand_total, C68_single_origin_false, C69_fixed_point, C69_gradient, C69_production_false, C69_production_gradient, C69_production_raises, C69_same_dynamics, C70_ais_gradient, C70_ais_is_flat_model, C70_data_gradient, C71_steps, C71_symmetric, C72_joint_potential_cache, C72_potential_cache, C73_attraction_false, C73_attraction_stale, C73_scaling_false, C73_tables_partial, C73_theta_partial, C74_false, C74_likelihood_gradient, C74_likelihood_value, C74_ratio_ignores_data, C75_exact_for_shift, C75_weight_formula, C76_gradient_false, C76_gradient_negated, C77_law, C77_least, C77_terminates, C77_zero_diverges, C78_false, C78_value, C79_cross_ratio, C79_fisher, C79_fisher_scaling, C79_multinomial, C79_poisson, C79_product_multinomial, C80_fisher_false, C80_multinomial, C80_poisson_false, C80_product_multinomial, C81_loss_partial, C81_normalised_false, C81_product_loss_false, C81_product_loss_transposed, C82_mean_affine, C82_same_sign, C82_sign_flip, C82_var_affine, C82_var_negative, C83_range, C83_symm, C83_undefined, C84_false, C84_inflated, C84_single_partial, C84_zero_iff, C86_batch_one_partial, C86_false, C86_mean, C86_steps, C87_allow_nan, C87_allow_nan_false, C87_float, C87_int, C87_numeric_text, C87_str, C88_bool_false, C88_bool_unchecked, C89_allow_nan, C89_directory, C89_extension_false, C89_extension_partial, C89_file, C90_custom_unique_false, C90_exact_length, C90_list_of_dicts_false, C90_list_of_ints, C90_list_of_strs, C90_list_of_tables_false, C90_nested, C90_range_list, C90_table, C91_default_false, C91_defaults, C91_missing_elements, C91_unchanged, C92_accept_given_table_iff, C92_accept_iff, C92_correlated_false, C92_stationary, C92_stationary_given_table, C93_noise, C93_noise_false, C94_clamped_false, C94_draw_is_a_law, C94_fibre_finite, C94_gibbs_invariant, C95_degree_one_exact, C95_degree_one_false, C95_degree_one_partial, C96_after, C96_conditional_law, C97_both_margins_false, C97_multinomial_law, C97_poisson_law, C97_row_multinomials_law, C98_accepted, C98_exact, C98_rejected, C98_shipped_unsweepable, C99_mode, C99_settings

