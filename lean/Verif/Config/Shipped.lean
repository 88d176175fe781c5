import Verif.Config.Model

/-!
# The shipped parameter file and schemas

Generated by `tools/gen_shipped.py` from data/inputs/configs/schemas (floats that are not whole: opaque codes).
-/

namespace GeNSIT

namespace Shipped

/-- `sweep_mode` of cfg_parameters.json. -/
def params0 : Cfg := .leaf (.bool true)

/-- `log_level` of cfg_parameters.json. -/
def params1 : Cfg := .leaf (.bool true)

/-- `inputs` of cfg_parameters.json. -/
def params2 : Cfg := .node false [(.str "seed", .node false [(.str "sweep", .node false [(.str "default", .leaf (.bool true)), (.str "range", .leaf (.bool true))])]), (.str "n_workers", .leaf (.bool true)), (.str "n_threads", .leaf (.bool true)), (.str "device", .leaf (.bool true)), (.str "in_directory", .leaf (.bool true)), (.str "dataset", .node false [(.str "sweep", .node false [(.str "default", .leaf (.bool true)), (.str "range", .leaf (.bool true))])]), (.str "load_experiment", .leaf (.bool true)), (.str "data", .node false [(.str "data_generation_seed", .leaf (.bool true)), (.str "adjacency_matrix", .node false [(.str "file", .node false [(.str "sweep", .node false [(.str "default", .leaf (.bool false)), (.str "range", .leaf (.bool false))])])]), (.str "region_features", .node false [(.str "file", .node false [(.str "sweep", .node false [(.str "default", .leaf (.bool false)), (.str "range", .leaf (.bool false))])])]), (.str "origin_region_features", .node false [(.str "file", .node false [(.str "sweep", .node false [(.str "default", .leaf (.bool false)), (.str "range", .leaf (.bool false))])])]), (.str "destination_region_features", .node false [(.str "file", .node false [(.str "sweep", .node false [(.str "default", .leaf (.bool false)), (.str "range", .leaf (.bool false))])])]), (.str "region_geometries", .node false [(.str "file", .node false [(.str "sweep", .node false [(.str "default", .leaf (.bool false)), (.str "range", .leaf (.bool false))])])]), (.str "train_cells", .node false [(.str "file", .node false [(.str "sweep", .node false [(.str "default", .leaf (.bool false)), (.str "range", .leaf (.bool false))])])]), (.str "test_cells", .node false [(.str "file", .node false [(.str "sweep", .node false [(.str "default", .leaf (.bool false)), (.str "range", .leaf (.bool false))])])]), (.str "validation_cells", .node false [(.str "file", .node false [(.str "sweep", .node false [(.str "default", .leaf (.bool false)), (.str "range", .leaf (.bool false))])])]), (.str "origin_demand", .node false [(.str "file", .node false [(.str "sweep", .node false [(.str "default", .leaf (.bool false)), (.str "range", .leaf (.bool false))])]), (.str "distribution", .leaf (.bool false)), (.str "parameters", .node false [(.str "lower", .leaf (.bool false)), (.str "upper", .leaf (.bool false)), (.str "mean", .leaf (.bool false)), (.str "std", .leaf (.bool false))])]), (.str "destination_demand", .node false [(.str "file", .node false [(.str "sweep", .node false [(.str "default", .leaf (.bool false)), (.str "range", .leaf (.bool false))])]), (.str "distribution", .leaf (.bool false)), (.str "parameters", .node false [(.str "lower", .leaf (.bool false)), (.str "upper", .leaf (.bool false)), (.str "mean", .leaf (.bool false)), (.str "std", .leaf (.bool false))])]), (.str "origin_attraction_ts", .node false [(.str "file", .node false [(.str "sweep", .node false [(.str "default", .leaf (.bool false)), (.str "range", .leaf (.bool false))])]), (.str "distribution", .leaf (.bool false)), (.str "parameters", .node false [(.str "lower", .leaf (.bool false)), (.str "upper", .leaf (.bool false)), (.str "mean", .leaf (.bool false)), (.str "std", .leaf (.bool false))])]), (.str "destination_attraction_ts", .node false [(.str "file", .node false [(.str "sweep", .node false [(.str "default", .leaf (.bool false)), (.str "range", .leaf (.bool false))])]), (.str "distribution", .leaf (.bool false)), (.str "parameters", .node false [(.str "lower", .leaf (.bool false)), (.str "upper", .leaf (.bool false)), (.str "mean", .leaf (.bool false)), (.str "std", .leaf (.bool false))])]), (.str "cost_matrix", .node false [(.str "file", .node false [(.str "sweep", .node false [(.str "default", .leaf (.bool false)), (.str "range", .leaf (.bool false))])]), (.str "distribution", .leaf (.bool false)), (.str "parameters", .node false [(.str "lower", .leaf (.bool false)), (.str "upper", .leaf (.bool false)), (.str "mean", .leaf (.bool false)), (.str "std", .leaf (.bool false))])]), (.str "ground_truth_table", .node false [(.str "file", .node false [(.str "sweep", .node false [(.str "default", .leaf (.bool false)), (.str "range", .leaf (.bool false))])]), (.str "distribution", .leaf (.bool false)), (.str "parameters", .node false [(.str "lam", .leaf (.bool false))])]), (.str "margins", .node true [(.idx 0, .node false [(.str "file", .node false [(.str "sweep", .node false [(.str "default", .leaf (.bool true)), (.str "range", .leaf (.bool true))])]), (.str "value", .leaf (.bool true))])]), (.str "cells_subset", .node true [(.idx 0, .node false [(.str "file", .node false [(.str "sweep", .node false [(.str "default", .leaf (.bool true)), (.str "range", .leaf (.bool true))])]), (.str "value", .leaf (.bool true))])]), (.str "dims", .node false [(.str "time", .node false [(.str "sweep", .node false [(.str "default", .leaf (.bool true)), (.str "range", .leaf (.bool true))])]), (.str "origin", .node false [(.str "sweep", .node false [(.str "default", .leaf (.bool true)), (.str "range", .leaf (.bool true))])]), (.str "destination", .node false [(.str "sweep", .node false [(.str "default", .leaf (.bool true)), (.str "range", .leaf (.bool true))])])])])]

/-- `contingency_table` of cfg_parameters.json. -/
def params3 : Cfg := .node false [(.str "disable_tqdm", .leaf (.bool true)), (.str "sparse_margins", .leaf (.bool true)), (.str "constraints", .node false [(.str "axes", .node false [(.str "sweep", .node false [(.str "default", .leaf (.bool true)), (.str "range", .leaf (.bool true))])]), (.str "cells", .node false [(.str "sweep", .node false [(.str "default", .leaf (.bool true)), (.str "range", .leaf (.bool true))])])])]

/-- `spatial_interaction_model` of cfg_parameters.json. -/
def params4 : Cfg := .node false [(.str "name", .node false [(.str "sweep", .node false [(.str "default", .leaf (.bool true)), (.str "range", .leaf (.bool true))])]), (.str "grand_total", .node false [(.str "sweep", .node false [(.str "default", .leaf (.bool true)), (.str "range", .leaf (.bool true))])]), (.str "parameters", .node false [(.str "alpha", .node false [(.str "sweep", .node false [(.str "default", .leaf (.bool true)), (.str "range", .leaf (.bool true))])]), (.str "beta", .node false [(.str "sweep", .node false [(.str "default", .leaf (.bool true)), (.str "range", .leaf (.bool true))])]), (.str "bmax", .node false [(.str "sweep", .node false [(.str "default", .leaf (.bool true)), (.str "range", .leaf (.bool true))])])])]

/-- `harris_wilson_model` of cfg_parameters.json. -/
def params5 : Cfg := .node false [(.str "dt", .node false [(.str "sweep", .node false [(.str "default", .leaf (.bool true)), (.str "range", .leaf (.bool true))])]), (.str "parameters", .node false [(.str "delta", .node false [(.str "sweep", .node false [(.str "default", .leaf (.bool true)), (.str "range", .leaf (.bool true))])]), (.str "kappa", .node false [(.str "sweep", .node false [(.str "default", .leaf (.bool true)), (.str "range", .leaf (.bool true))])]), (.str "sigma", .node false [(.str "sweep", .node false [(.str "default", .leaf (.bool true)), (.str "range", .leaf (.bool true))])]), (.str "epsilon", .node false [(.str "sweep", .node false [(.str "default", .leaf (.bool true)), (.str "range", .leaf (.bool true))])]), (.str "noise_percentage", .node false [(.str "sweep", .node false [(.str "default", .leaf (.bool true)), (.str "range", .leaf (.bool true))])])])]

/-- `hyperparameter_optimisation` of cfg_parameters.json. -/
def params6 : Cfg := .node false [(.str "n_trials", .leaf (.bool true)), (.str "timeout", .leaf (.bool true)), (.str "metric_minimise", .leaf (.bool true)), (.str "metric_evaluation", .leaf (.bool true))]

/-- `training` of cfg_parameters.json. -/
def params7 : Cfg := .node false [(.str "N", .node false [(.str "sweep", .node false [(.str "default", .leaf (.bool true)), (.str "range", .leaf (.bool true))])]), (.str "num_steps", .node false [(.str "sweep", .node false [(.str "default", .leaf (.bool true)), (.str "range", .leaf (.bool true))])]), (.str "batch_size", .leaf (.bool true)), (.str "to_learn", .node false [(.str "sweep", .node false [(.str "default", .leaf (.bool true)), (.str "range", .leaf (.bool true))])])]

/-- `mcmc` of cfg_parameters.json. -/
def params8 : Cfg := .node false [(.str "disable_tqdm", .leaf (.bool true)), (.str "mcmc_workers", .leaf (.bool true)), (.str "parameters", .node false [(.str "theta_steps", .node false [(.str "sweep", .node false [(.str "default", .leaf (.bool true)), (.str "range", .leaf (.bool true))])]), (.str "covariance", .node false [(.str "sweep", .node false [(.str "default", .leaf (.bool true)), (.str "range", .leaf (.bool true))])]), (.str "step_size", .node false [(.str "sweep", .node false [(.str "default", .leaf (.bool true)), (.str "range", .leaf (.bool true))])])]), (.str "destination_attraction", .node false [(.str "destination_attraction_steps", .node false [(.str "sweep", .node false [(.str "default", .leaf (.bool true)), (.str "range", .leaf (.bool true))])]), (.str "leapfrog_steps", .node false [(.str "sweep", .node false [(.str "default", .leaf (.bool true)), (.str "range", .leaf (.bool true))])]), (.str "ais_leapfrog_steps", .node false [(.str "sweep", .node false [(.str "default", .leaf (.bool true)), (.str "range", .leaf (.bool true))])]), (.str "ais_samples", .node false [(.str "sweep", .node false [(.str "default", .leaf (.bool true)), (.str "range", .leaf (.bool true))])]), (.str "n_bridging_distributions", .node false [(.str "sweep", .node false [(.str "default", .leaf (.bool true)), (.str "range", .leaf (.bool true))])]), (.str "leapfrog_step_size", .node false [(.str "sweep", .node false [(.str "default", .leaf (.bool true)), (.str "range", .leaf (.bool true))])]), (.str "ais_leapfrog_step_size", .node false [(.str "sweep", .node false [(.str "default", .leaf (.bool true)), (.str "range", .leaf (.bool true))])])]), (.str "contingency_table", .node false [(.str "table_steps", .node false [(.str "sweep", .node false [(.str "default", .leaf (.bool true)), (.str "range", .leaf (.bool true))])]), (.str "proposal", .node false [(.str "sweep", .node false [(.str "default", .leaf (.bool true)), (.str "range", .leaf (.bool true))])]), (.str "table0", .leaf (.bool true)), (.str "margin0", .leaf (.bool true))])]

/-- `random_forest` of cfg_parameters.json. -/
def params9 : Cfg := .node false [(.str "disable_tqdm", .leaf (.bool true)), (.str "hyperparameters", .node false [(.str "rf_oob_score", .node false [(.str "sweep", .node false [(.str "default", .leaf (.bool true)), (.str "range", .leaf (.bool true))])]), (.str "rf_max_depth", .node false [(.str "sweep", .node false [(.str "default", .leaf (.bool true)), (.str "range", .leaf (.bool true))])]), (.str "rf_min_samples_split", .node false [(.str "sweep", .node false [(.str "default", .leaf (.bool true)), (.str "range", .leaf (.bool true))])]), (.str "rf_min_samples_leaf", .node false [(.str "sweep", .node false [(.str "default", .leaf (.bool true)), (.str "range", .leaf (.bool true))])])])]

/-- `gradient_boosted_regression_trees` of cfg_parameters.json. -/
def params10 : Cfg := .node false [(.str "disable_tqdm", .leaf (.bool true)), (.str "hyperparameters", .node false [(.str "gbrt_max_depth", .node false [(.str "sweep", .node false [(.str "default", .leaf (.bool true)), (.str "range", .leaf (.bool true))])]), (.str "gbrt_min_samples_split", .node false [(.str "sweep", .node false [(.str "default", .leaf (.bool true)), (.str "range", .leaf (.bool true))])]), (.str "gbrt_min_samples_leaf", .node false [(.str "sweep", .node false [(.str "default", .leaf (.bool true)), (.str "range", .leaf (.bool true))])])])]

/-- `xgboost` of cfg_parameters.json. -/
def params11 : Cfg := .node false [(.str "disable_tqdm", .leaf (.bool true)), (.str "hyperparameters", .node false [(.str "xg_max_depth", .node false [(.str "sweep", .node false [(.str "default", .leaf (.bool true)), (.str "range", .leaf (.bool true))])]), (.str "xg_learning_rate", .node false [(.str "sweep", .node false [(.str "default", .leaf (.bool true)), (.str "range", .leaf (.bool true))])]), (.str "xg_eval_metric", .node false [(.str "sweep", .node false [(.str "default", .leaf (.bool true)), (.str "range", .leaf (.bool true))])]), (.str "xg_gpu_id", .node false [(.str "sweep", .node false [(.str "default", .leaf (.bool true)), (.str "range", .leaf (.bool true))])]), (.str "xg_tree_method", .node false [(.str "sweep", .node false [(.str "default", .leaf (.bool true)), (.str "range", .leaf (.bool true))])]), (.str "xg_max_delta_step", .node false [(.str "sweep", .node false [(.str "default", .leaf (.bool true)), (.str "range", .leaf (.bool true))])]), (.str "xg_min_child_weight", .node false [(.str "sweep", .node false [(.str "default", .leaf (.bool true)), (.str "range", .leaf (.bool true))])]), (.str "xg_alpha", .node false [(.str "sweep", .node false [(.str "default", .leaf (.bool true)), (.str "range", .leaf (.bool true))])]), (.str "xg_lambda", .node false [(.str "sweep", .node false [(.str "default", .leaf (.bool true)), (.str "range", .leaf (.bool true))])]), (.str "xg_gamma", .node false [(.str "sweep", .node false [(.str "default", .leaf (.bool true)), (.str "range", .leaf (.bool true))])]), (.str "xg_subsample", .node false [(.str "sweep", .node false [(.str "default", .leaf (.bool true)), (.str "range", .leaf (.bool true))])])])]

/-- `graph_attention_network` of cfg_parameters.json. -/
def params12 : Cfg := .node false [(.str "disable_tqdm", .leaf (.bool true)), (.str "hyperparameters", .node false [(.str "gat_nodes_per_layer", .node false [(.str "sweep", .node false [(.str "default", .leaf (.bool true)), (.str "range", .leaf (.bool true))])]), (.str "gat_num_hidden_layers", .node false [(.str "sweep", .node false [(.str "default", .leaf (.bool true)), (.str "range", .leaf (.bool true))])]), (.str "gat_dropout", .node false [(.str "sweep", .node false [(.str "default", .leaf (.bool true)), (.str "range", .leaf (.bool true))])]), (.str "gat_reg_param", .node false [(.str "sweep", .node false [(.str "default", .leaf (.bool true)), (.str "range", .leaf (.bool true))])]), (.str "gat_negative_sampling_rate", .node false [(.str "sweep", .node false [(.str "default", .leaf (.bool true)), (.str "range", .leaf (.bool true))])]), (.str "gat_grad_norm", .node false [(.str "sweep", .node false [(.str "default", .leaf (.bool true)), (.str "range", .leaf (.bool true))])]), (.str "gat_optimizer", .node false [(.str "sweep", .node false [(.str "default", .leaf (.bool true)), (.str "range", .leaf (.bool true))])]), (.str "gat_learning_rate", .node false [(.str "sweep", .node false [(.str "default", .leaf (.bool true)), (.str "range", .leaf (.bool true))])]), (.str "gat_multitask_weights", .node false [(.str "sweep", .node false [(.str "default", .leaf (.bool true)), (.str "range", .leaf (.bool true))])])])]

/-- `neural_network` of cfg_parameters.json. -/
def params13 : Cfg := .node false [(.str "disable_tqdm", .leaf (.bool true)), (.str "loss", .node false [(.str "loss_name", .node false [(.str "sweep", .node false [(.str "default", .leaf (.bool true)), (.str "range", .leaf (.bool true))])]), (.str "loss_function", .node false [(.str "sweep", .node false [(.str "default", .leaf (.bool true)), (.str "range", .leaf (.bool true))])]), (.str "loss_kwargs", .node false [(.str "sweep", .node false [(.str "default", .leaf (.bool true)), (.str "range", .leaf (.bool true))])])]), (.str "hyperparameters", .node false [(.str "num_hidden_layers", .node false [(.str "sweep", .node false [(.str "default", .leaf (.bool true)), (.str "range", .leaf (.bool true))])]), (.str "optimizer", .node false [(.str "sweep", .node false [(.str "default", .leaf (.bool true)), (.str "range", .leaf (.bool true))])]), (.str "learning_rate", .node false [(.str "sweep", .node false [(.str "default", .leaf (.bool true)), (.str "range", .leaf (.bool true))])]), (.str "biases", .node false [(.str "default", .leaf (.bool true)), (.str "layer_specific", .leaf (.bool true))]), (.str "nodes_per_layer", .node false [(.str "default", .leaf (.bool true)), (.str "layer_specific", .leaf (.bool true))]), (.str "activation_funcs", .node false [(.str "default", .leaf (.bool true)), (.str "layer_specific", .leaf (.bool true))])])]

/-- `experiments` of cfg_parameters.json. -/
def params14 : Cfg := .node true [(.idx 0, .node false [(.str "type", .leaf (.bool true)), (.str "comment", .leaf (.bool true)), (.str "disable_tqdm", .leaf (.bool true)), (.str "export_samples", .leaf (.bool true)), (.str "export_metadata", .leaf (.bool true)), (.str "overwrite", .leaf (.bool true)), (.str "validate_samples", .leaf (.bool true)), (.str "grid_ranges", .node false [(.str "alpha", .leaf (.bool true)), (.str "beta", .leaf (.bool true))])])]

/-- `outputs` of cfg_parameters.json. -/
def params15 : Cfg := .node false [(.str "write_start", .leaf (.bool true)), (.str "write_every", .leaf (.bool true)), (.str "out_directory", .leaf (.bool true)), (.str "out_group", .leaf (.bool true)), (.str "title", .node false [(.str "sweep", .node false [(.str "default", .leaf (.bool true)), (.str "range", .leaf (.bool true))])])]

/-- data/inputs/configs/schemas/cfg_parameters.json. -/
def params : Cfg := .node false [(.str "sweep_mode", params0), (.str "log_level", params1), (.str "inputs", params2), (.str "contingency_table", params3), (.str "spatial_interaction_model", params4), (.str "harris_wilson_model", params5), (.str "hyperparameter_optimisation", params6), (.str "training", params7), (.str "mcmc", params8), (.str "random_forest", params9), (.str "gradient_boosted_regression_trees", params10), (.str "xgboost", params11), (.str "graph_attention_network", params12), (.str "neural_network", params13), (.str "experiments", params14), (.str "outputs", params15)]

/-- `sweep_mode` of cfg_schema.json. -/
def schema0 : Cfg := .node false [(.str "sweepable", .leaf (.bool false)), (.str "optional", .leaf (.bool false)), (.str "exclude", .leaf (.bool false)), (.str "dtype", .leaf (.str "bool")), (.str "default-value", .leaf (.bool false))]

/-- `log_level` of cfg_schema.json. -/
def schema1 : Cfg := .node false [(.str "sweepable", .leaf (.bool false)), (.str "optional", .leaf (.bool false)), (.str "exclude", .leaf (.bool false)), (.str "dtype", .leaf (.str "str")), (.str "default-value", .leaf (.str "info")), (.str "is-any-of", .node true [(.idx 0, .leaf (.str "info")), (.idx 1, .leaf (.str "warn")), (.idx 2, .leaf (.str "error")), (.idx 3, .leaf (.str "critical")), (.idx 4, .leaf (.str "debug"))])]

/-- `inputs` of cfg_schema.json. -/
def schema2 : Cfg := .node false [(.str "seed", .node false [(.str "sweepable", .leaf (.bool true)), (.str "optional", .leaf (.bool true)), (.str "exclude", .leaf (.bool false)), (.str "sweep", .node false [(.str "default", .node false [(.str "dtype", .leaf (.str "int")), (.str "default-value", .leaf .null), (.str "valid-range", .node true [(.idx 0, .leaf (.num 0)), (.idx 1, .leaf .null)]), (.str "inclusive", .leaf (.bool true))]), (.str "range", .node false [(.str "dtype", .leaf (.str "customList")), (.str "list-dtype", .leaf (.str "int")), (.str "default-value", .leaf (.str "0:100:1")), (.str "valid-range", .node true [(.idx 0, .leaf (.num 0)), (.idx 1, .leaf .null)]), (.str "inclusive", .leaf (.bool true)), (.str "unique-vals", .leaf (.bool true))])])]), (.str "n_workers", .node false [(.str "sweepable", .leaf (.bool false)), (.str "optional", .leaf (.bool true)), (.str "exclude", .leaf (.bool false)), (.str "dtype", .leaf (.str "int")), (.str "default-value", .leaf (.num 1)), (.str "valid-range", .node true [(.idx 0, .leaf (.num 1)), (.idx 1, .leaf (.num 32))])]), (.str "n_threads", .node false [(.str "sweepable", .leaf (.bool false)), (.str "optional", .leaf (.bool true)), (.str "exclude", .leaf (.bool false)), (.str "allow-nan", .leaf (.bool true)), (.str "dtype", .leaf (.str "int")), (.str "default-value", .leaf (.num 8)), (.str "valid-range", .node true [(.idx 0, .leaf (.num 1)), (.idx 1, .leaf (.num 32))])]), (.str "device", .node false [(.str "sweepable", .leaf (.bool false)), (.str "optional", .leaf (.bool true)), (.str "exclude", .leaf (.bool false)), (.str "dtype", .leaf (.str "str")), (.str "default-value", .leaf (.str "cpu")), (.str "is-any-of", .node true [(.idx 0, .leaf (.str "cpu")), (.idx 1, .leaf (.str "cuda"))])]), (.str "in_directory", .node false [(.str "sweepable", .leaf (.bool false)), (.str "optional", .leaf (.bool false)), (.str "exclude", .leaf (.bool false)), (.str "dtype", .leaf (.str "directory")), (.str "directory-exists", .leaf (.bool true)), (.str "default-value", .leaf (.str "./data/inputs/"))]), (.str "dataset", .node false [(.str "sweepable", .leaf (.bool true)), (.str "optional", .leaf (.bool false)), (.str "exclude", .leaf (.bool false)), (.str "sweep", .node false [(.str "default", .node false [(.str "dtype", .leaf (.str "str")), (.str "default-value", .leaf (.str "synthetic_2x3_N_100/"))]), (.str "range", .node false [(.str "dtype", .leaf (.str "list")), (.str "list-length", .node true [(.idx 0, .leaf (.num 1)), (.idx 1, .leaf .null)]), (.str "list-dtype", .leaf (.str "str")), (.str "default-value", .leaf (.str "synthetic_2x3_N_100/"))])])]), (.str "load_experiment", .node false [(.str "sweepable", .leaf (.bool false)), (.str "optional", .leaf (.bool true)), (.str "exclude", .leaf (.bool false)), (.str "dtype", .leaf (.str "str")), (.str "default-value", .leaf (.str ""))]), (.str "data", .node false [(.str "sweepable", .leaf (.bool false)), (.str "optional", .leaf (.bool false)), (.str "exclude", .leaf (.bool false)), (.str "data_generation_seed", .node false [(.str "sweepable", .leaf (.bool false)), (.str "optional", .leaf (.bool true)), (.str "exclude", .leaf (.bool false)), (.str "dtype", .leaf (.str "int")), (.str "default-value", .leaf (.num 1234)), (.str "valid-range", .node true [(.idx 0, .leaf (.num 1)), (.idx 1, .leaf .null)])]), (.str "synthesis_method", .node false [(.str "sweepable", .leaf (.bool false)), (.str "optional", .leaf (.bool true)), (.str "exclude", .leaf (.bool false)), (.str "dtype", .leaf (.str "str")), (.str "default-value", .leaf (.str "sde_solver")), (.str "is-any-of", .node true [(.idx 0, .leaf (.str "sde_solver")), (.idx 1, .leaf (.str "sde_potential"))])]), (.str "synthesis_n_samples", .node false [(.str "sweepable", .leaf (.bool false)), (.str "optional", .leaf (.bool true)), (.str "exclude", .leaf (.bool false)), (.str "dtype", .leaf (.str "int")), (.str "default-value", .leaf (.num 1)), (.str "valid-range", .node true [(.idx 0, .leaf (.num 1)), (.idx 1, .leaf .null)])]), (.str "dims", .node false [(.str "sweepable", .leaf (.bool false)), (.str "optional", .leaf (.bool true)), (.str "exclude", .leaf (.bool false)), (.str "time", .node false [(.str "sweepable", .leaf (.bool true)), (.str "optional", .leaf (.bool true)), (.str "exclude", .leaf (.bool false)), (.str "sweep", .node false [(.str "default", .node false [(.str "dtype", .leaf (.str "int")), (.str "default-value", .leaf (.num 1)), (.str "valid-range", .node true [(.idx 0, .leaf (.num 0)), (.idx 1, .leaf .null)]), (.str "inclusive", .leaf (.bool false))]), (.str "range", .node false [(.str "dtype", .leaf (.str "list")), (.str "list-dtype", .leaf (.str "int")), (.str "list-length", .node true [(.idx 0, .leaf (.num 1)), (.idx 1, .leaf .null)]), (.str "default-value", .leaf (.num 1)), (.str "valid-range", .node true [(.idx 0, .leaf (.num 0)), (.idx 1, .leaf .null)]), (.str "inclusive", .leaf (.bool false))])])]), (.str "origin", .node false [(.str "sweepable", .leaf (.bool true)), (.str "optional", .leaf (.bool true)), (.str "exclude", .leaf (.bool false)), (.str "sweep", .node false [(.str "default", .node false [(.str "dtype", .leaf (.str "int")), (.str "default-value", .leaf (.num 1)), (.str "valid-range", .node true [(.idx 0, .leaf (.num 1)), (.idx 1, .leaf .null)])]), (.str "range", .node false [(.str "dtype", .leaf (.str "list")), (.str "list-length", .node true [(.idx 0, .leaf (.num 1)), (.idx 1, .leaf .null)]), (.str "list-dtype", .leaf (.str "int")), (.str "unique-vals", .leaf (.bool false)), (.str "default-value", .leaf (.num 1))])])]), (.str "destination", .node false [(.str "sweepable", .leaf (.bool true)), (.str "optional", .leaf (.bool true)), (.str "exclude", .leaf (.bool false)), (.str "sweep", .node false [(.str "default", .node false [(.str "dtype", .leaf (.str "int")), (.str "default-value", .leaf (.num 1)), (.str "valid-range", .node true [(.idx 0, .leaf (.num 1)), (.idx 1, .leaf .null)])]), (.str "range", .node false [(.str "dtype", .leaf (.str "list")), (.str "list-dtype", .leaf (.str "int")), (.str "list-length", .node true [(.idx 0, .leaf (.num 1)), (.idx 1, .leaf .null)]), (.str "default-value", .leaf (.num 1))])])])]), (.str "adjacency_matrix", .node false [(.str "sweepable", .leaf (.bool false)), (.str "optional", .leaf (.bool false)), (.str "exclude", .leaf (.bool false)), (.str "file", .node false [(.str "sweepable", .leaf (.bool true)), (.str "optional", .leaf (.bool true)), (.str "exclude", .leaf (.bool false)), (.str "sweep", .node false [(.str "default", .node false [(.str "dtype", .leaf (.str "file")), (.str "file-exists", .leaf (.bool false)), (.str "file-extension", .leaf (.str "txt")), (.str "default-value", .leaf (.str "adjacency_matrix.txt"))]), (.str "range", .node false [(.str "dtype", .leaf (.str "list")), (.str "list-length", .node true [(.idx 0, .leaf (.num 1)), (.idx 1, .leaf .null)]), (.str "list-dtype", .leaf (.str "file")), (.str "file-exists", .leaf (.bool false)), (.str "file-extension", .leaf (.str "txt")), (.str "default-value", .leaf (.str "adjacency_matrix.txt")), (.str "unique-vals", .leaf (.bool true))])])])]), (.str "region_features", .node false [(.str "sweepable", .leaf (.bool false)), (.str "optional", .leaf (.bool true)), (.str "exclude", .leaf (.bool false)), (.str "file", .node false [(.str "sweepable", .leaf (.bool true)), (.str "optional", .leaf (.bool true)), (.str "exclude", .leaf (.bool false)), (.str "sweep", .node false [(.str "default", .node false [(.str "dtype", .leaf (.str "file")), (.str "file-exists", .leaf (.bool false)), (.str "file-extension", .leaf (.str "npy")), (.str "default-value", .leaf (.str "region_features.npy"))]), (.str "range", .node false [(.str "dtype", .leaf (.str "list")), (.str "list-length", .node true [(.idx 0, .leaf (.num 1)), (.idx 1, .leaf .null)]), (.str "list-dtype", .leaf (.str "file")), (.str "file-exists", .leaf (.bool false)), (.str "file-extension", .leaf (.str "npy")), (.str "default-value", .leaf (.str "region_features.npy")), (.str "unique-vals", .leaf (.bool true))])])]), (.str "value", .node false [(.str "sweepable", .leaf (.bool true)), (.str "optional", .leaf (.bool true)), (.str "exclude", .leaf (.bool false)), (.str "sweep", .node false [(.str "default", .node false [(.str "dtype", .leaf (.str "list")), (.str "list-dtype", .leaf (.str "int")), (.str "default-value", .node true [])]), (.str "range", .node false [(.str "dtype", .leaf (.str "list")), (.str "list-dtype", .leaf (.str "list")), (.str "list-list-dtype", .leaf (.str "int")), (.str "default-value", .node true [])])])])]), (.str "origin_region_features", .node false [(.str "sweepable", .leaf (.bool false)), (.str "optional", .leaf (.bool true)), (.str "exclude", .leaf (.bool false)), (.str "file", .node false [(.str "sweepable", .leaf (.bool true)), (.str "optional", .leaf (.bool true)), (.str "exclude", .leaf (.bool false)), (.str "sweep", .node false [(.str "default", .node false [(.str "dtype", .leaf (.str "file")), (.str "file-exists", .leaf (.bool false)), (.str "file-extension", .leaf (.str "npy")), (.str "default-value", .leaf (.str "region_features.npy"))]), (.str "range", .node false [(.str "dtype", .leaf (.str "list")), (.str "list-length", .node true [(.idx 0, .leaf (.num 1)), (.idx 1, .leaf .null)]), (.str "list-dtype", .leaf (.str "file")), (.str "file-exists", .leaf (.bool false)), (.str "file-extension", .leaf (.str "npy")), (.str "default-value", .leaf (.str "region_features.npy")), (.str "unique-vals", .leaf (.bool true))])])]), (.str "value", .node false [(.str "sweepable", .leaf (.bool true)), (.str "optional", .leaf (.bool true)), (.str "exclude", .leaf (.bool false)), (.str "sweep", .node false [(.str "default", .node false [(.str "dtype", .leaf (.str "list")), (.str "list-dtype", .leaf (.str "int")), (.str "default-value", .node true [])]), (.str "range", .node false [(.str "dtype", .leaf (.str "list")), (.str "list-dtype", .leaf (.str "list")), (.str "list-list-dtype", .leaf (.str "int")), (.str "default-value", .node true [])])])])]), (.str "destination_region_features", .node false [(.str "sweepable", .leaf (.bool false)), (.str "optional", .leaf (.bool true)), (.str "exclude", .leaf (.bool false)), (.str "file", .node false [(.str "sweepable", .leaf (.bool true)), (.str "optional", .leaf (.bool true)), (.str "exclude", .leaf (.bool false)), (.str "sweep", .node false [(.str "default", .node false [(.str "dtype", .leaf (.str "file")), (.str "file-exists", .leaf (.bool false)), (.str "file-extension", .leaf (.str "npy")), (.str "default-value", .leaf (.str "region_features.npy"))]), (.str "range", .node false [(.str "dtype", .leaf (.str "list")), (.str "list-length", .node true [(.idx 0, .leaf (.num 1)), (.idx 1, .leaf .null)]), (.str "list-dtype", .leaf (.str "file")), (.str "file-exists", .leaf (.bool false)), (.str "file-extension", .leaf (.str "npy")), (.str "default-value", .leaf (.str "region_features.npy")), (.str "unique-vals", .leaf (.bool true))])])]), (.str "value", .node false [(.str "sweepable", .leaf (.bool true)), (.str "optional", .leaf (.bool true)), (.str "exclude", .leaf (.bool false)), (.str "sweep", .node false [(.str "default", .node false [(.str "dtype", .leaf (.str "list")), (.str "list-dtype", .leaf (.str "int")), (.str "default-value", .node true [])]), (.str "range", .node false [(.str "dtype", .leaf (.str "list")), (.str "list-dtype", .leaf (.str "list")), (.str "list-list-dtype", .leaf (.str "int")), (.str "default-value", .node true [])])])])]), (.str "region_geometries", .node false [(.str "sweepable", .leaf (.bool false)), (.str "optional", .leaf (.bool true)), (.str "exclude", .leaf (.bool false)), (.str "file", .node false [(.str "sweepable", .leaf (.bool true)), (.str "optional", .leaf (.bool true)), (.str "exclude", .leaf (.bool false)), (.str "sweep", .node false [(.str "default", .node false [(.str "dtype", .leaf (.str "file")), (.str "file-exists", .leaf (.bool false)), (.str "file-extension", .leaf (.str "geojson")), (.str "default-value", .leaf (.str "region_geometries.geojson"))]), (.str "range", .node false [(.str "dtype", .leaf (.str "list")), (.str "list-length", .node true [(.idx 0, .leaf (.num 1)), (.idx 1, .leaf .null)]), (.str "list-dtype", .leaf (.str "file")), (.str "file-exists", .leaf (.bool false)), (.str "file-extension", .leaf (.str "geojson")), (.str "default-value", .leaf (.str "region_geometries.geojson")), (.str "unique-vals", .leaf (.bool true))])])]), (.str "value", .node false [(.str "sweepable", .leaf (.bool true)), (.str "optional", .leaf (.bool true)), (.str "exclude", .leaf (.bool false)), (.str "sweep", .node false [(.str "default", .node false [(.str "dtype", .leaf (.str "geopandas")), (.str "default-value", .node true [])]), (.str "range", .node false [(.str "dtype", .leaf (.str "list")), (.str "list-dtype", .leaf (.str "geopandas")), (.str "default-value", .node true [])])])])]), (.str "train_cells", .node false [(.str "sweepable", .leaf (.bool false)), (.str "optional", .leaf (.bool true)), (.str "exclude", .leaf (.bool false)), (.str "file", .node false [(.str "sweepable", .leaf (.bool true)), (.str "optional", .leaf (.bool true)), (.str "exclude", .leaf (.bool false)), (.str "sweep", .node false [(.str "default", .node false [(.str "dtype", .leaf (.str "file")), (.str "file-exists", .leaf (.bool false)), (.str "file-extension", .leaf (.str "txt")), (.str "default-value", .leaf (.str ""))]), (.str "range", .node false [(.str "dtype", .leaf (.str "list")), (.str "list-length", .node true [(.idx 0, .leaf (.num 1)), (.idx 1, .leaf .null)]), (.str "list-dtype", .leaf (.str "file")), (.str "file-exists", .leaf (.bool false)), (.str "file-extension", .leaf (.str "txt")), (.str "default-value", .leaf (.str "")), (.str "unique-vals", .leaf (.bool false))])])])]), (.str "test_cells", .node false [(.str "sweepable", .leaf (.bool false)), (.str "optional", .leaf (.bool true)), (.str "exclude", .leaf (.bool false)), (.str "file", .node false [(.str "sweepable", .leaf (.bool true)), (.str "optional", .leaf (.bool true)), (.str "exclude", .leaf (.bool false)), (.str "sweep", .node false [(.str "default", .node false [(.str "dtype", .leaf (.str "file")), (.str "file-exists", .leaf (.bool false)), (.str "file-extension", .leaf (.str "txt")), (.str "default-value", .leaf (.str "test_cells.txt"))]), (.str "range", .node false [(.str "dtype", .leaf (.str "list")), (.str "list-length", .node true [(.idx 0, .leaf (.num 1)), (.idx 1, .leaf .null)]), (.str "list-dtype", .leaf (.str "file")), (.str "file-exists", .leaf (.bool false)), (.str "file-extension", .leaf (.str "txt")), (.str "default-value", .leaf (.str "test_cells.txt")), (.str "unique-vals", .leaf (.bool false))])])])]), (.str "validation_cells", .node false [(.str "sweepable", .leaf (.bool false)), (.str "optional", .leaf (.bool true)), (.str "exclude", .leaf (.bool false)), (.str "file", .node false [(.str "sweepable", .leaf (.bool true)), (.str "optional", .leaf (.bool true)), (.str "exclude", .leaf (.bool false)), (.str "sweep", .node false [(.str "default", .node false [(.str "dtype", .leaf (.str "file")), (.str "file-exists", .leaf (.bool false)), (.str "file-extension", .leaf (.str "txt")), (.str "default-value", .leaf (.str "validation_cells.txt"))]), (.str "range", .node false [(.str "dtype", .leaf (.str "list")), (.str "list-length", .node true [(.idx 0, .leaf (.num 1)), (.idx 1, .leaf .null)]), (.str "list-dtype", .leaf (.str "file")), (.str "file-exists", .leaf (.bool false)), (.str "file-extension", .leaf (.str "txt")), (.str "default-value", .leaf (.str "validation_cells.txt")), (.str "unique-vals", .leaf (.bool false))])])])]), (.str "origin_demand", .node false [(.str "sweepable", .leaf (.bool false)), (.str "optional", .leaf (.bool true)), (.str "exclude", .leaf (.bool false)), (.str "file", .node false [(.str "sweepable", .leaf (.bool true)), (.str "optional", .leaf (.bool true)), (.str "exclude", .leaf (.bool false)), (.str "sweep", .node false [(.str "default", .node false [(.str "dtype", .leaf (.str "file")), (.str "file-exists", .leaf (.bool false)), (.str "file-extension", .leaf (.str "txt")), (.str "default-value", .leaf (.str "origin_demand.txt"))]), (.str "range", .node false [(.str "dtype", .leaf (.str "list")), (.str "list-length", .node true [(.idx 0, .leaf (.num 1)), (.idx 1, .leaf .null)]), (.str "list-dtype", .leaf (.str "file")), (.str "file-exists", .leaf (.bool false)), (.str "file-extension", .leaf (.str "txt")), (.str "default-value", .leaf (.str "origin_demand.txt")), (.str "unique-vals", .leaf (.bool false))])])]), (.str "value", .node false [(.str "sweepable", .leaf (.bool true)), (.str "optional", .leaf (.bool true)), (.str "exclude", .leaf (.bool false)), (.str "sweep", .node false [(.str "default", .node false [(.str "dtype", .leaf (.str "list")), (.str "list-dtype", .leaf (.str "int")), (.str "default-value", .node true [])]), (.str "range", .node false [(.str "dtype", .leaf (.str "list")), (.str "list-dtype", .leaf (.str "list")), (.str "list-list-dtype", .leaf (.str "int")), (.str "default-value", .node true [])])])]), (.str "distribution", .node false [(.str "sweepable", .leaf (.bool false)), (.str "optional", .leaf (.bool true)), (.str "exclude", .leaf (.bool false)), (.str "dtype", .leaf (.str "str")), (.str "default-value", .leaf (.str "uniform")), (.str "is-any-of", .node true [(.idx 0, .leaf (.str "uniform")), (.idx 1, .leaf (.str "normal"))])]), (.str "parameters", .node false [(.str "sweepable", .leaf (.bool false)), (.str "optional", .leaf (.bool true)), (.str "exclude", .leaf (.bool false)), (.str "upper", .node false [(.str "sweepable", .leaf (.bool false)), (.str "optional", .leaf (.bool true)), (.str "exclude", .leaf (.bool false)), (.str "dtype", .leaf (.str "float")), (.str "default-value", .leaf (.num 1)), (.str "valid-range", .node true [(.idx 0, .leaf (.num 0)), (.idx 1, .leaf .null)])]), (.str "lower", .node false [(.str "sweepable", .leaf (.bool false)), (.str "optional", .leaf (.bool true)), (.str "exclude", .leaf (.bool false)), (.str "dtype", .leaf (.str "float")), (.str "default-value", .leaf (.num 1)), (.str "valid-range", .node true [(.idx 0, .leaf (.num 0)), (.idx 1, .leaf .null)])]), (.str "mean", .node false [(.str "sweepable", .leaf (.bool false)), (.str "optional", .leaf (.bool true)), (.str "exclude", .leaf (.bool false)), (.str "dtype", .leaf (.str "float")), (.str "default-value", .leaf (.num 1)), (.str "valid-range", .node true [(.idx 0, .leaf (.num 0)), (.idx 1, .leaf .null)])]), (.str "std", .node false [(.str "sweepable", .leaf (.bool false)), (.str "optional", .leaf (.bool true)), (.str "exclude", .leaf (.bool false)), (.str "dtype", .leaf (.str "float")), (.str "default-value", .leaf (.num 1)), (.str "valid-range", .node true [(.idx 0, .leaf (.num 0)), (.idx 1, .leaf .null)])])])]), (.str "destination_demand", .node false [(.str "sweepable", .leaf (.bool false)), (.str "optional", .leaf (.bool true)), (.str "exclude", .leaf (.bool false)), (.str "file", .node false [(.str "sweepable", .leaf (.bool true)), (.str "optional", .leaf (.bool true)), (.str "exclude", .leaf (.bool false)), (.str "sweep", .node false [(.str "default", .node false [(.str "dtype", .leaf (.str "file")), (.str "file-exists", .leaf (.bool false)), (.str "file-extension", .leaf (.str "txt")), (.str "default-value", .leaf (.str "destination_demand.txt"))]), (.str "range", .node false [(.str "dtype", .leaf (.str "list")), (.str "list-length", .node true [(.idx 0, .leaf (.num 1)), (.idx 1, .leaf .null)]), (.str "list-dtype", .leaf (.str "file")), (.str "file-exists", .leaf (.bool false)), (.str "file-extension", .leaf (.str "txt")), (.str "default-value", .leaf (.str "destination_demand.txt")), (.str "unique-vals", .leaf (.bool false))])])]), (.str "value", .node false [(.str "sweepable", .leaf (.bool true)), (.str "optional", .leaf (.bool true)), (.str "exclude", .leaf (.bool false)), (.str "sweep", .node false [(.str "default", .node false [(.str "dtype", .leaf (.str "list")), (.str "list-dtype", .leaf (.str "int")), (.str "default-value", .node true [])]), (.str "range", .node false [(.str "dtype", .leaf (.str "list")), (.str "list-dtype", .leaf (.str "list")), (.str "list-list-dtype", .leaf (.str "int")), (.str "default-value", .node true [])])])]), (.str "distribution", .node false [(.str "sweepable", .leaf (.bool false)), (.str "optional", .leaf (.bool true)), (.str "exclude", .leaf (.bool false)), (.str "dtype", .leaf (.str "str")), (.str "default-value", .leaf (.str "uniform")), (.str "is-any-of", .node true [(.idx 0, .leaf (.str "uniform")), (.idx 1, .leaf (.str "normal"))])]), (.str "parameters", .node false [(.str "sweepable", .leaf (.bool false)), (.str "optional", .leaf (.bool true)), (.str "exclude", .leaf (.bool false)), (.str "upper", .node false [(.str "sweepable", .leaf (.bool false)), (.str "optional", .leaf (.bool true)), (.str "exclude", .leaf (.bool false)), (.str "dtype", .leaf (.str "float")), (.str "default-value", .leaf (.num 1)), (.str "valid-range", .node true [(.idx 0, .leaf (.num 0)), (.idx 1, .leaf .null)])]), (.str "lower", .node false [(.str "sweepable", .leaf (.bool false)), (.str "optional", .leaf (.bool true)), (.str "exclude", .leaf (.bool false)), (.str "dtype", .leaf (.str "float")), (.str "default-value", .leaf (.num 1)), (.str "valid-range", .node true [(.idx 0, .leaf (.num 0)), (.idx 1, .leaf .null)])]), (.str "mean", .node false [(.str "sweepable", .leaf (.bool false)), (.str "optional", .leaf (.bool true)), (.str "exclude", .leaf (.bool false)), (.str "dtype", .leaf (.str "float")), (.str "default-value", .leaf (.num 1)), (.str "valid-range", .node true [(.idx 0, .leaf (.num 0)), (.idx 1, .leaf .null)])]), (.str "std", .node false [(.str "sweepable", .leaf (.bool false)), (.str "optional", .leaf (.bool true)), (.str "exclude", .leaf (.bool false)), (.str "dtype", .leaf (.str "float")), (.str "default-value", .leaf (.num 1)), (.str "valid-range", .node true [(.idx 0, .leaf (.num 0)), (.idx 1, .leaf .null)])])])]), (.str "origin_attraction_ts", .node false [(.str "sweepable", .leaf (.bool false)), (.str "optional", .leaf (.bool true)), (.str "exclude", .leaf (.bool false)), (.str "file", .node false [(.str "sweepable", .leaf (.bool true)), (.str "optional", .leaf (.bool true)), (.str "exclude", .leaf (.bool false)), (.str "sweep", .node false [(.str "default", .node false [(.str "dtype", .leaf (.str "file")), (.str "file-exists", .leaf (.bool false)), (.str "file-extension", .leaf (.str "txt")), (.str "default-value", .leaf (.str "origin_attraction_ts.txt"))]), (.str "range", .node false [(.str "dtype", .leaf (.str "list")), (.str "list-length", .node true [(.idx 0, .leaf (.num 1)), (.idx 1, .leaf .null)]), (.str "list-dtype", .leaf (.str "file")), (.str "file-exists", .leaf (.bool false)), (.str "file-extension", .leaf (.str "txt")), (.str "default-value", .leaf (.str "origin_attraction_ts.txt")), (.str "unique-vals", .leaf (.bool true))])])]), (.str "value", .node false [(.str "sweepable", .leaf (.bool true)), (.str "optional", .leaf (.bool true)), (.str "exclude", .leaf (.bool false)), (.str "sweep", .node false [(.str "default", .node false [(.str "dtype", .leaf (.str "list")), (.str "list-dtype", .leaf (.str "int")), (.str "default-value", .node true [])]), (.str "range", .node false [(.str "dtype", .leaf (.str "list")), (.str "list-dtype", .leaf (.str "list")), (.str "list-list-dtype", .leaf (.str "int")), (.str "default-value", .node true [])])])]), (.str "distribution", .node false [(.str "sweepable", .leaf (.bool false)), (.str "optional", .leaf (.bool true)), (.str "exclude", .leaf (.bool false)), (.str "dtype", .leaf (.str "str")), (.str "default-value", .leaf (.str "uniform")), (.str "is-any-of", .node true [(.idx 0, .leaf (.str "uniform")), (.idx 1, .leaf (.str "normal"))])]), (.str "parameters", .node false [(.str "sweepable", .leaf (.bool false)), (.str "optional", .leaf (.bool true)), (.str "exclude", .leaf (.bool false)), (.str "upper", .node false [(.str "sweepable", .leaf (.bool false)), (.str "optional", .leaf (.bool true)), (.str "exclude", .leaf (.bool false)), (.str "dtype", .leaf (.str "float")), (.str "default-value", .leaf (.num 1)), (.str "valid-range", .node true [(.idx 0, .leaf (.num 0)), (.idx 1, .leaf .null)])]), (.str "lower", .node false [(.str "sweepable", .leaf (.bool false)), (.str "optional", .leaf (.bool true)), (.str "exclude", .leaf (.bool false)), (.str "dtype", .leaf (.str "float")), (.str "default-value", .leaf (.num 1)), (.str "valid-range", .node true [(.idx 0, .leaf (.num 0)), (.idx 1, .leaf .null)])]), (.str "mean", .node false [(.str "sweepable", .leaf (.bool false)), (.str "optional", .leaf (.bool true)), (.str "exclude", .leaf (.bool false)), (.str "dtype", .leaf (.str "float")), (.str "default-value", .leaf (.num 1)), (.str "valid-range", .node true [(.idx 0, .leaf (.num 0)), (.idx 1, .leaf .null)])]), (.str "std", .node false [(.str "sweepable", .leaf (.bool false)), (.str "optional", .leaf (.bool true)), (.str "exclude", .leaf (.bool false)), (.str "dtype", .leaf (.str "float")), (.str "default-value", .leaf (.num 1)), (.str "valid-range", .node true [(.idx 0, .leaf (.num 0)), (.idx 1, .leaf .null)])])])]), (.str "destination_attraction_ts", .node false [(.str "sweepable", .leaf (.bool false)), (.str "optional", .leaf (.bool true)), (.str "exclude", .leaf (.bool false)), (.str "file", .node false [(.str "sweepable", .leaf (.bool true)), (.str "optional", .leaf (.bool true)), (.str "exclude", .leaf (.bool false)), (.str "sweep", .node false [(.str "default", .node false [(.str "dtype", .leaf (.str "file")), (.str "file-exists", .leaf (.bool false)), (.str "file-extension", .leaf (.str "txt")), (.str "default-value", .leaf (.str "destination_attraction_ts.txt"))]), (.str "range", .node false [(.str "dtype", .leaf (.str "list")), (.str "list-length", .node true [(.idx 0, .leaf (.num 1)), (.idx 1, .leaf .null)]), (.str "list-dtype", .leaf (.str "file")), (.str "file-exists", .leaf (.bool false)), (.str "file-extension", .leaf (.str "txt")), (.str "default-value", .leaf (.str "destination_attraction_ts.txt")), (.str "unique-vals", .leaf (.bool true))])])]), (.str "value", .node false [(.str "sweepable", .leaf (.bool true)), (.str "optional", .leaf (.bool true)), (.str "exclude", .leaf (.bool false)), (.str "sweep", .node false [(.str "default", .node false [(.str "dtype", .leaf (.str "list")), (.str "list-dtype", .leaf (.str "int")), (.str "default-value", .node true [])]), (.str "range", .node false [(.str "dtype", .leaf (.str "list")), (.str "list-dtype", .leaf (.str "list")), (.str "list-list-dtype", .leaf (.str "int")), (.str "default-value", .node true [])])])]), (.str "distribution", .node false [(.str "sweepable", .leaf (.bool false)), (.str "optional", .leaf (.bool true)), (.str "exclude", .leaf (.bool false)), (.str "dtype", .leaf (.str "str")), (.str "default-value", .leaf (.str "uniform")), (.str "is-any-of", .node true [(.idx 0, .leaf (.str "uniform")), (.idx 1, .leaf (.str "normal"))])]), (.str "parameters", .node false [(.str "sweepable", .leaf (.bool false)), (.str "optional", .leaf (.bool true)), (.str "exclude", .leaf (.bool false)), (.str "upper", .node false [(.str "sweepable", .leaf (.bool false)), (.str "optional", .leaf (.bool true)), (.str "exclude", .leaf (.bool false)), (.str "dtype", .leaf (.str "float")), (.str "default-value", .leaf (.num 1)), (.str "valid-range", .node true [(.idx 0, .leaf (.num 0)), (.idx 1, .leaf .null)])]), (.str "lower", .node false [(.str "sweepable", .leaf (.bool false)), (.str "optional", .leaf (.bool true)), (.str "exclude", .leaf (.bool false)), (.str "dtype", .leaf (.str "float")), (.str "default-value", .leaf (.num 1)), (.str "valid-range", .node true [(.idx 0, .leaf (.num 0)), (.idx 1, .leaf .null)])]), (.str "mean", .node false [(.str "sweepable", .leaf (.bool false)), (.str "optional", .leaf (.bool true)), (.str "exclude", .leaf (.bool false)), (.str "dtype", .leaf (.str "float")), (.str "default-value", .leaf (.num 1)), (.str "valid-range", .node true [(.idx 0, .leaf (.num 0)), (.idx 1, .leaf .null)])]), (.str "std", .node false [(.str "sweepable", .leaf (.bool false)), (.str "optional", .leaf (.bool true)), (.str "exclude", .leaf (.bool false)), (.str "dtype", .leaf (.str "float")), (.str "default-value", .leaf (.num 1)), (.str "valid-range", .node true [(.idx 0, .leaf (.num 0)), (.idx 1, .leaf .null)])])])]), (.str "cost_matrix", .node false [(.str "sweepable", .leaf (.bool false)), (.str "optional", .leaf (.bool false)), (.str "exclude", .leaf (.bool false)), (.str "file", .node false [(.str "sweepable", .leaf (.bool true)), (.str "optional", .leaf (.bool true)), (.str "exclude", .leaf (.bool false)), (.str "sweep", .node false [(.str "default", .node false [(.str "dtype", .leaf (.str "file")), (.str "file-exists", .leaf (.bool false)), (.str "file-extension", .leaf (.str "txt")), (.str "default-value", .leaf (.str "cost_matrix.txt"))]), (.str "range", .node false [(.str "dtype", .leaf (.str "list")), (.str "list-length", .node true [(.idx 0, .leaf (.num 1)), (.idx 1, .leaf .null)]), (.str "list-dtype", .leaf (.str "file")), (.str "file-exists", .leaf (.bool false)), (.str "file-extension", .leaf (.str "txt")), (.str "default-value", .leaf (.str "cost_matrix.txt")), (.str "unique-vals", .leaf (.bool true))])])]), (.str "distribution", .node false [(.str "sweepable", .leaf (.bool false)), (.str "optional", .leaf (.bool true)), (.str "exclude", .leaf (.bool false)), (.str "dtype", .leaf (.str "str")), (.str "default-value", .leaf (.str "uniform")), (.str "is-any-of", .node true [(.idx 0, .leaf (.str "uniform")), (.idx 1, .leaf (.str "normal"))])]), (.str "value", .node false [(.str "sweepable", .leaf (.bool true)), (.str "optional", .leaf (.bool true)), (.str "exclude", .leaf (.bool false)), (.str "sweep", .node false [(.str "default", .node false [(.str "dtype", .leaf (.str "list")), (.str "list-dtype", .leaf (.str "int")), (.str "default-value", .node true [])]), (.str "range", .node false [(.str "dtype", .leaf (.str "list")), (.str "list-dtype", .leaf (.str "list")), (.str "list-list-dtype", .leaf (.str "int")), (.str "default-value", .node true [])])])]), (.str "parameters", .node false [(.str "sweepable", .leaf (.bool false)), (.str "optional", .leaf (.bool true)), (.str "exclude", .leaf (.bool false)), (.str "upper", .node false [(.str "sweepable", .leaf (.bool false)), (.str "optional", .leaf (.bool true)), (.str "exclude", .leaf (.bool false)), (.str "dtype", .leaf (.str "float")), (.str "default-value", .leaf (.num 1)), (.str "valid-range", .node true [(.idx 0, .leaf (.num 0)), (.idx 1, .leaf .null)])]), (.str "lower", .node false [(.str "sweepable", .leaf (.bool false)), (.str "optional", .leaf (.bool true)), (.str "exclude", .leaf (.bool false)), (.str "dtype", .leaf (.str "float")), (.str "default-value", .leaf (.num 1)), (.str "valid-range", .node true [(.idx 0, .leaf (.num 0)), (.idx 1, .leaf .null)])]), (.str "mean", .node false [(.str "sweepable", .leaf (.bool false)), (.str "optional", .leaf (.bool true)), (.str "exclude", .leaf (.bool false)), (.str "dtype", .leaf (.str "float")), (.str "default-value", .leaf (.num 1)), (.str "valid-range", .node true [(.idx 0, .leaf (.num 0)), (.idx 1, .leaf .null)])]), (.str "std", .node false [(.str "sweepable", .leaf (.bool false)), (.str "optional", .leaf (.bool true)), (.str "exclude", .leaf (.bool false)), (.str "dtype", .leaf (.str "float")), (.str "default-value", .leaf (.num 1)), (.str "valid-range", .node true [(.idx 0, .leaf (.num 0)), (.idx 1, .leaf .null)])])])]), (.str "ground_truth_table", .node false [(.str "sweepable", .leaf (.bool false)), (.str "optional", .leaf (.bool true)), (.str "exclude", .leaf (.bool false)), (.str "file", .node false [(.str "sweepable", .leaf (.bool true)), (.str "optional", .leaf (.bool true)), (.str "exclude", .leaf (.bool false)), (.str "sweep", .node false [(.str "default", .node false [(.str "dtype", .leaf (.str "file")), (.str "file-exists", .leaf (.bool false)), (.str "file-extension", .leaf (.str "txt")), (.str "default-value", .leaf (.str "ground_truth_table.txt"))]), (.str "range", .node false [(.str "dtype", .leaf (.str "list")), (.str "list-dtype", .leaf (.str "file")), (.str "file-exists", .leaf (.bool false)), (.str "file-extension", .leaf (.str "txt")), (.str "default-value", .leaf (.str "ground_truth_table.txt")), (.str "unique-vals", .leaf (.bool true))])])]), (.str "distribution", .node false [(.str "sweepable", .leaf (.bool false)), (.str "optional", .leaf (.bool true)), (.str "exclude", .leaf (.bool false)), (.str "dtype", .leaf (.str "str")), (.str "default-value", .leaf (.str "poisson")), (.str "is-any-of", .node true [(.idx 0, .leaf (.str "poisson"))])]), (.str "value", .node false [(.str "sweepable", .leaf (.bool false)), (.str "optional", .leaf (.bool true)), (.str "exclude", .leaf (.bool false)), (.str "dtype", .leaf (.str "list")), (.str "list-dtype", .leaf (.str "int")), (.str "default-value", .node true [])]), (.str "parameters", .node false [(.str "sweepable", .leaf (.bool false)), (.str "optional", .leaf (.bool true)), (.str "exclude", .leaf (.bool false)), (.str "lam", .node false [(.str "sweepable", .leaf (.bool false)), (.str "optional", .leaf (.bool true)), (.str "exclude", .leaf (.bool false)), (.str "dtype", .leaf (.str "float")), (.str "default-value", .leaf (.num 1)), (.str "valid-range", .node true [(.idx 0, .leaf (.num 0)), (.idx 1, .leaf .null)])])])]), (.str "total_cost_by_origin", .node false [(.str "sweepable", .leaf (.bool false)), (.str "optional", .leaf (.bool true)), (.str "exclude", .leaf (.bool false)), (.str "file", .node false [(.str "sweepable", .leaf (.bool true)), (.str "optional", .leaf (.bool true)), (.str "exclude", .leaf (.bool false)), (.str "sweep", .node false [(.str "default", .node false [(.str "dtype", .leaf (.str "file")), (.str "file-exists", .leaf (.bool false)), (.str "file-extension", .leaf (.str "txt")), (.str "default-value", .leaf (.str "total_distance_to_work.txt"))]), (.str "range", .node false [(.str "dtype", .leaf (.str "list")), (.str "list-length", .node true [(.idx 0, .leaf (.num 1)), (.idx 1, .leaf .null)]), (.str "list-dtype", .leaf (.str "file")), (.str "file-exists", .leaf (.bool false)), (.str "file-extension", .leaf (.str "txt")), (.str "default-value", .leaf (.str "total_distance_to_work.txt")), (.str "unique-vals", .leaf (.bool true))])])])]), (.str "margins", .node true [(.idx 0, .node false [(.str "file", .node false [(.str "sweepable", .leaf (.bool true)), (.str "optional", .leaf (.bool true)), (.str "exclude", .leaf (.bool false)), (.str "sweep", .node false [(.str "default", .node false [(.str "dtype", .leaf (.str "file")), (.str "file-extension", .leaf (.str "txt")), (.str "default-value", .leaf (.str "margins.txt"))]), (.str "range", .node false [(.str "dtype", .leaf (.str "list")), (.str "list-dtype", .leaf (.str "file")), (.str "file-extension", .leaf (.str "txt")), (.str "default-value", .leaf (.str "margins.txt"))])])]), (.str "value", .node false [(.str "sweepable", .leaf (.bool false)), (.str "optional", .leaf (.bool true)), (.str "exclude", .leaf (.bool false)), (.str "dtype", .leaf (.str "list")), (.str "list-dtype", .leaf (.str "int")), (.str "default-value", .node true [])])])]), (.str "cells_subset", .node true [(.idx 0, .node false [(.str "file", .node false [(.str "sweepable", .leaf (.bool true)), (.str "optional", .leaf (.bool true)), (.str "exclude", .leaf (.bool false)), (.str "sweep", .node false [(.str "default", .node false [(.str "dtype", .leaf (.str "file")), (.str "file-extension", .leaf (.str "json")), (.str "default-value", .leaf (.str "cells_subset.json"))]), (.str "range", .node false [(.str "dtype", .leaf (.str "list")), (.str "list-dtype", .leaf (.str "file")), (.str "file-extension", .leaf (.str "json")), (.str "default-value", .leaf (.str "cells_subset.json"))])])]), (.str "value", .node false [(.str "sweepable", .leaf (.bool false)), (.str "optional", .leaf (.bool true)), (.str "exclude", .leaf (.bool false)), (.str "dtype", .leaf (.str "list")), (.str "list-dtype", .leaf (.str "dict")), (.str "dict-key-dtype", .leaf (.str "str")), (.str "dict-value-dtype", .leaf (.str "int")), (.str "default-value", .node false []), (.str "value-valid-range", .node true [(.idx 0, .leaf (.num 0)), (.idx 1, .leaf .null)])])])])])]

/-- `contingency_table` of cfg_schema.json. -/
def schema3 : Cfg := .node false [(.str "sweepable", .leaf (.bool false)), (.str "optional", .leaf (.bool true)), (.str "exclude", .leaf (.bool false)), (.str "disable_tqdm", .node false [(.str "sweepable", .leaf (.bool false)), (.str "optional", .leaf (.bool true)), (.str "exclude", .leaf (.bool false)), (.str "dtype", .leaf (.str "bool")), (.str "default-value", .leaf (.bool true))]), (.str "sparse_margins", .node false [(.str "sweepable", .leaf (.bool false)), (.str "optional", .leaf (.bool true)), (.str "exclude", .leaf (.bool false)), (.str "dtype", .leaf (.str "bool")), (.str "default-value", .leaf (.bool true))]), (.str "constraints", .node false [(.str "sweepable", .leaf (.bool false)), (.str "optional", .leaf (.bool true)), (.str "exclude", .leaf (.bool false)), (.str "axes", .node false [(.str "sweepable", .leaf (.bool true)), (.str "optional", .leaf (.bool true)), (.str "exclude", .leaf (.bool false)), (.str "sweep", .node false [(.str "default", .node false [(.str "dtype", .leaf (.str "list")), (.str "list-dtype", .leaf (.str "list")), (.str "list-list-dtype", .leaf (.str "int")), (.str "default-value", .node true [(.idx 0, .node true [(.idx 0, .leaf (.num 0)), (.idx 1, .leaf (.num 1))])])]), (.str "range", .node false [(.str "dtype", .leaf (.str "list")), (.str "list-dtype", .leaf (.str "list")), (.str "list-list-dtype", .leaf (.str "list")), (.str "list-list-list-dtype", .leaf (.str "int")), (.str "default-value", .node true [(.idx 0, .node true [(.idx 0, .leaf (.num 0)), (.idx 1, .leaf (.num 1))])])])])]), (.str "cells", .node false [(.str "sweepable", .leaf (.bool true)), (.str "optional", .leaf (.bool true)), (.str "exclude", .leaf (.bool false)), (.str "sweep", .node false [(.str "default", .node false [(.str "dtype", .leaf (.str "bool")), (.str "default-value", .leaf (.bool true))]), (.str "range", .node false [(.str "dtype", .leaf (.str "list")), (.str "list-dtype", .leaf (.str "bool")), (.str "default-value", .leaf (.bool true)), (.str "unique-vals", .leaf (.bool false))])])])])]

/-- `spatial_interaction_model` of cfg_schema.json. -/
def schema4 : Cfg := .node false [(.str "sweepable", .leaf (.bool false)), (.str "optional", .leaf (.bool true)), (.str "exclude", .leaf (.bool false)), (.str "name", .node false [(.str "sweepable", .leaf (.bool true)), (.str "optional", .leaf (.bool true)), (.str "exclude", .leaf (.bool false)), (.str "sweep", .node false [(.str "default", .node false [(.str "dtype", .leaf (.str "str")), (.str "default-value", .leaf (.str "TotallyConstrained")), (.str "is-any-of", .node true [(.idx 0, .leaf (.str "TotallyConstrained")), (.idx 1, .leaf (.str "ProductionConstrained"))])]), (.str "range", .node false [(.str "dtype", .leaf (.str "list")), (.str "list-length", .node true [(.idx 0, .leaf (.num 1)), (.idx 1, .leaf .null)]), (.str "list-dtype", .leaf (.str "str")), (.str "default-value", .leaf (.str "TotallyConstrained")), (.str "is-any-of", .node true [(.idx 0, .leaf (.str "TotallyConstrained")), (.idx 1, .leaf (.str "ProductionConstrained"))])])])]), (.str "grand_total", .node false [(.str "sweepable", .leaf (.bool true)), (.str "optional", .leaf (.bool true)), (.str "exclude", .leaf (.bool false)), (.str "sweep", .node false [(.str "default", .node false [(.str "dtype", .leaf (.str "int")), (.str "default-value", .leaf (.num 1)), (.str "valid-range", .node true [(.idx 0, .leaf (.num 1)), (.idx 1, .leaf .null)])]), (.str "range", .node false [(.str "dtype", .leaf (.str "list")), (.str "default-value", .leaf (.num 1)), (.str "list-length", .node true [(.idx 0, .leaf (.num 1)), (.idx 1, .leaf .null)]), (.str "list-dtype", .leaf (.str "int"))])])]), (.str "parameters", .node false [(.str "sweepable", .leaf (.bool false)), (.str "optional", .leaf (.bool true)), (.str "exclude", .leaf (.bool false)), (.str "alpha", .node false [(.str "sweepable", .leaf (.bool true)), (.str "optional", .leaf (.bool true)), (.str "exclude", .leaf (.bool false)), (.str "sweep", .node false [(.str "default", .node false [(.str "dtype", .leaf (.str "float")), (.str "default-value", .leaf (.num 1)), (.str "valid-range", .node true [(.idx 0, .leaf (.num 0)), (.idx 1, .leaf .null)])]), (.str "range", .node false [(.str "dtype", .leaf (.str "list")), (.str "list-dtype", .leaf (.str "float")), (.str "default-value", .leaf (.num 1)), (.str "valid-range", .node true [(.idx 0, .leaf (.num 0)), (.idx 1, .leaf .null)]), (.str "unique-vals", .leaf (.bool true))])])]), (.str "beta", .node false [(.str "sweepable", .leaf (.bool true)), (.str "optional", .leaf (.bool true)), (.str "exclude", .leaf (.bool false)), (.str "sweep", .node false [(.str "default", .node false [(.str "dtype", .leaf (.str "float")), (.str "default-value", .leaf (.num 0)), (.str "valid-range", .node true [(.idx 0, .leaf (.num 0)), (.idx 1, .leaf .null)])]), (.str "range", .node false [(.str "dtype", .leaf (.str "list")), (.str "list-dtype", .leaf (.str "float")), (.str "default-value", .leaf (.num 0)), (.str "valid-range", .node true [(.idx 0, .leaf (.num 0)), (.idx 1, .leaf .null)]), (.str "unique-vals", .leaf (.bool true))])])]), (.str "bmax", .node false [(.str "sweepable", .leaf (.bool true)), (.str "optional", .leaf (.bool true)), (.str "exclude", .leaf (.bool false)), (.str "sweep", .node false [(.str "default", .node false [(.str "dtype", .leaf (.str "float")), (.str "default-value", .leaf (.num 1)), (.str "valid-range", .node true [(.idx 0, .leaf (.num 0)), (.idx 1, .leaf .null)]), (.str "inclusive", .leaf (.bool false))]), (.str "range", .node false [(.str "dtype", .leaf (.str "list")), (.str "list-dtype", .leaf (.str "float")), (.str "default-value", .leaf (.num 0)), (.str "valid-range", .node true [(.idx 0, .leaf (.num 0)), (.idx 1, .leaf .null)]), (.str "inclusive", .leaf (.bool false)), (.str "unique-vals", .leaf (.bool true))])])])])]

/-- `harris_wilson_model` of cfg_schema.json. -/
def schema5 : Cfg := .node false [(.str "sweepable", .leaf (.bool false)), (.str "optional", .leaf (.bool true)), (.str "exclude", .leaf (.bool false)), (.str "dt", .node false [(.str "sweepable", .leaf (.bool true)), (.str "optional", .leaf (.bool true)), (.str "exclude", .leaf (.bool false)), (.str "sweep", .node false [(.str "default", .node false [(.str "dtype", .leaf (.str "float")), (.str "default-value", .leaf (.num 1000000)), (.str "valid-range", .node true [(.idx 0, .leaf (.num 0)), (.idx 1, .leaf (.num 1))])]), (.str "range", .node false [(.str "dtype", .leaf (.str "list")), (.str "list-dtype", .leaf (.str "float")), (.str "valid-range", .node true [(.idx 0, .leaf (.num 0)), (.idx 1, .leaf (.num 1))]), (.str "default-value", .leaf (.num 1000000)), (.str "unique-vals", .leaf (.bool true))])])]), (.str "parameters", .node false [(.str "sweepable", .leaf (.bool false)), (.str "optional", .leaf (.bool true)), (.str "exclude", .leaf (.bool false)), (.str "delta", .node false [(.str "sweepable", .leaf (.bool true)), (.str "optional", .leaf (.bool true)), (.str "exclude", .leaf (.bool false)), (.str "sweep", .node false [(.str "default", .node false [(.str "dtype", .leaf (.str "float")), (.str "default-value", .leaf (.num 0)), (.str "valid-range", .node true [(.idx 0, .leaf (.num 0)), (.idx 1, .leaf .null)])]), (.str "range", .node false [(.str "dtype", .leaf (.str "list")), (.str "list-dtype", .leaf (.str "float")), (.str "default-value", .leaf (.num 0)), (.str "valid-range", .node true [(.idx 0, .leaf (.num 0)), (.idx 1, .leaf .null)]), (.str "unique-vals", .leaf (.bool true))])])]), (.str "kappa", .node false [(.str "sweepable", .leaf (.bool true)), (.str "optional", .leaf (.bool true)), (.str "exclude", .leaf (.bool false)), (.str "sweep", .node false [(.str "default", .node false [(.str "dtype", .leaf (.str "float")), (.str "default-value", .leaf (.num 0)), (.str "valid-range", .node true [(.idx 0, .leaf (.num 0)), (.idx 1, .leaf .null)]), (.str "inclusive", .leaf (.bool false))]), (.str "range", .node false [(.str "dtype", .leaf (.str "list")), (.str "list-dtype", .leaf (.str "float")), (.str "default-value", .leaf (.num 0)), (.str "valid-range", .node true [(.idx 0, .leaf (.num 0)), (.idx 1, .leaf .null)]), (.str "inclusive", .leaf (.bool false)), (.str "unique-vals", .leaf (.bool true))])])]), (.str "sigma", .node false [(.str "sweepable", .leaf (.bool true)), (.str "optional", .leaf (.bool true)), (.str "exclude", .leaf (.bool false)), (.str "sweep", .node false [(.str "default", .node false [(.str "dtype", .leaf (.str "float")), (.str "allow-nan", .leaf (.bool true)), (.str "default-value", .leaf .null), (.str "valid-range", .node true [(.idx 0, .leaf (.num 0)), (.idx 1, .leaf .null)])]), (.str "range", .node false [(.str "dtype", .leaf (.str "list")), (.str "list-dtype", .leaf (.str "float")), (.str "allow-nan", .leaf (.bool true)), (.str "default-value", .leaf .null), (.str "valid-range", .node true [(.idx 0, .leaf (.num 0)), (.idx 1, .leaf .null)]), (.str "unique-vals", .leaf (.bool true))])])]), (.str "epsilon", .node false [(.str "sweepable", .leaf (.bool true)), (.str "optional", .leaf (.bool true)), (.str "exclude", .leaf (.bool false)), (.str "sweep", .node false [(.str "default", .node false [(.str "dtype", .leaf (.str "float")), (.str "default-value", .leaf (.num 1)), (.str "valid-range", .node true [(.idx 0, .leaf (.num 0)), (.idx 1, .leaf .null)]), (.str "inclusive", .leaf (.bool false))]), (.str "range", .node false [(.str "dtype", .leaf (.str "list")), (.str "list-dtype", .leaf (.str "float")), (.str "default-value", .leaf (.num 0)), (.str "valid-range", .node true [(.idx 0, .leaf (.num 0)), (.idx 1, .leaf .null)]), (.str "inclusive", .leaf (.bool false)), (.str "unique-vals", .leaf (.bool true))])])]), (.str "noise_percentage", .node false [(.str "sweepable", .leaf (.bool true)), (.str "optional", .leaf (.bool true)), (.str "exclude", .leaf (.bool false)), (.str "sweep", .node false [(.str "default", .node false [(.str "dtype", .leaf (.str "float")), (.str "default-value", .leaf (.num 3)), (.str "valid-range", .node true [(.idx 0, .leaf (.num 0)), (.idx 1, .leaf .null)]), (.str "inclusive", .leaf (.bool true))]), (.str "range", .node false [(.str "dtype", .leaf (.str "list")), (.str "list-dtype", .leaf (.str "float")), (.str "default-value", .leaf (.num 3)), (.str "valid-range", .node true [(.idx 0, .leaf (.num 0)), (.idx 1, .leaf .null)]), (.str "inclusive", .leaf (.bool true)), (.str "unique-vals", .leaf (.bool true))])])])])]

/-- `mcmc` of cfg_schema.json. -/
def schema6 : Cfg := .node false [(.str "sweepable", .leaf (.bool false)), (.str "optional", .leaf (.bool true)), (.str "exclude", .leaf (.bool false)), (.str "disable_tqdm", .node false [(.str "sweepable", .leaf (.bool false)), (.str "optional", .leaf (.bool true)), (.str "exclude", .leaf (.bool false)), (.str "dtype", .leaf (.str "bool")), (.str "default-value", .leaf (.bool true))]), (.str "mcmc_workers", .node false [(.str "sweepable", .leaf (.bool false)), (.str "optional", .leaf (.bool true)), (.str "exclude", .leaf (.bool false)), (.str "dtype", .leaf (.str "int")), (.str "default-value", .leaf (.num 1)), (.str "value-range", .node true [(.idx 0, .leaf (.num 1)), (.idx 1, .leaf .null)]), (.str "inclusive", .leaf (.bool false))]), (.str "parameters", .node false [(.str "sweepable", .leaf (.bool false)), (.str "optional", .leaf (.bool true)), (.str "exclude", .leaf (.bool false)), (.str "theta_steps", .node false [(.str "sweepable", .leaf (.bool false)), (.str "optional", .leaf (.bool true)), (.str "exclude", .leaf (.bool false)), (.str "sweep", .node false [(.str "default", .node false [(.str "dtype", .leaf (.str "int")), (.str "default-value", .leaf (.num 1)), (.str "value-range", .node true [(.idx 0, .leaf (.num 1)), (.idx 1, .leaf .null)]), (.str "inclusive", .leaf (.bool false))]), (.str "range", .node false [(.str "dtype", .leaf (.str "list")), (.str "list-dtype", .leaf (.str "int")), (.str "default-value", .leaf (.num 1)), (.str "value-range", .node true [(.idx 0, .leaf (.num 1)), (.idx 1, .leaf .null)]), (.str "inclusive", .leaf (.bool false))])])]), (.str "covariance", .node false [(.str "sweepable", .leaf (.bool true)), (.str "optional", .leaf (.bool true)), (.str "exclude", .leaf (.bool false)), (.str "sweep", .node false [(.str "default", .node false [(.str "dtype", .leaf (.str "list2D")), (.str "default-value", .node true [(.idx 0, .node true [(.idx 0, .leaf (.num 1)), (.idx 1, .leaf (.num 0))]), (.idx 1, .node true [(.idx 0, .leaf (.num 0)), (.idx 1, .leaf (.num 1))])]), (.str "list2D-nrows", .leaf (.num 2)), (.str "list2D-ncols", .leaf (.num 2)), (.str "list2D-dtype", .leaf (.str "float")), (.str "value-range", .node true [(.idx 0, .leaf (.num 0)), (.idx 1, .leaf .null)])]), (.str "range", .node false [(.str "dtype", .leaf (.str "list")), (.str "default-value", .node true [(.idx 0, .node true [(.idx 0, .node true [(.idx 0, .leaf (.num 1)), (.idx 1, .leaf (.num 0))]), (.idx 1, .node true [(.idx 0, .leaf (.num 0)), (.idx 1, .leaf (.num 1))])])]), (.str "list-dtype", .leaf (.str "list2D")), (.str "list-list2D-nrows", .leaf (.num 2)), (.str "list-list2D-ncols", .leaf (.num 2)), (.str "list-list2D-dtype", .leaf (.str "float")), (.str "value-range", .node true [(.idx 0, .leaf (.num 0)), (.idx 1, .leaf .null)])])])]), (.str "step_size", .node false [(.str "sweepable", .leaf (.bool true)), (.str "optional", .leaf (.bool true)), (.str "exclude", .leaf (.bool false)), (.str "sweep", .node false [(.str "default", .node false [(.str "dtype", .leaf (.str "float")), (.str "default-value", .leaf (.num 1)), (.str "value-range", .node true [(.idx 0, .leaf (.num 0)), (.idx 1, .leaf .null)]), (.str "inclusive", .leaf (.bool false))]), (.str "range", .node false [(.str "dtype", .leaf (.str "list")), (.str "default-value", .leaf (.num 1)), (.str "list-dtype", .leaf (.str "float")), (.str "value-range", .node true [(.idx 0, .leaf (.num 0)), (.idx 1, .leaf .null)]), (.str "inclusive", .leaf (.bool false))])])])]), (.str "destination_attraction", .node false [(.str "sweepable", .leaf (.bool false)), (.str "optional", .leaf (.bool true)), (.str "exclude", .leaf (.bool false)), (.str "destination_attraction_steps", .node false [(.str "sweepable", .leaf (.bool false)), (.str "optional", .leaf (.bool true)), (.str "exclude", .leaf (.bool false)), (.str "sweep", .node false [(.str "default", .node false [(.str "dtype", .leaf (.str "int")), (.str "default-value", .leaf (.num 1)), (.str "value-range", .node true [(.idx 0, .leaf (.num 1)), (.idx 1, .leaf .null)]), (.str "inclusive", .leaf (.bool false))]), (.str "range", .node false [(.str "dtype", .leaf (.str "list")), (.str "list-dtype", .leaf (.str "int")), (.str "default-value", .leaf (.num 1)), (.str "value-range", .node true [(.idx 0, .leaf (.num 1)), (.idx 1, .leaf .null)]), (.str "inclusive", .leaf (.bool false))])])]), (.str "leapfrog_steps", .node false [(.str "sweepable", .leaf (.bool true)), (.str "optional", .leaf (.bool true)), (.str "exclude", .leaf (.bool false)), (.str "sweep", .node false [(.str "default", .node false [(.str "dtype", .leaf (.str "int")), (.str "default-value", .leaf (.num 1)), (.str "value-range", .node true [(.idx 0, .leaf (.num 0)), (.idx 1, .leaf .null)]), (.str "inclusive", .leaf (.bool false))]), (.str "range", .node false [(.str "dtype", .leaf (.str "list")), (.str "default-value", .leaf (.num 1)), (.str "list-dtype", .leaf (.str "int")), (.str "value-range", .node true [(.idx 0, .leaf (.num 0)), (.idx 1, .leaf .null)]), (.str "inclusive", .leaf (.bool false))])])]), (.str "ais_leapfrog_steps", .node false [(.str "sweepable", .leaf (.bool true)), (.str "optional", .leaf (.bool true)), (.str "exclude", .leaf (.bool false)), (.str "sweep", .node false [(.str "default", .node false [(.str "dtype", .leaf (.str "int")), (.str "default-value", .leaf (.num 1)), (.str "value-range", .node true [(.idx 0, .leaf (.num 0)), (.idx 1, .leaf .null)]), (.str "inclusive", .leaf (.bool false))]), (.str "range", .node false [(.str "dtype", .leaf (.str "list")), (.str "default-value", .leaf (.num 1)), (.str "list-dtype", .leaf (.str "int")), (.str "value-range", .node true [(.idx 0, .leaf (.num 0)), (.idx 1, .leaf .null)]), (.str "inclusive", .leaf (.bool false))])])]), (.str "ais_samples", .node false [(.str "sweepable", .leaf (.bool true)), (.str "optional", .leaf (.bool true)), (.str "exclude", .leaf (.bool false)), (.str "sweep", .node false [(.str "default", .node false [(.str "dtype", .leaf (.str "int")), (.str "default-value", .leaf (.num 1)), (.str "value-range", .node true [(.idx 0, .leaf (.num 0)), (.idx 1, .leaf .null)]), (.str "inclusive", .leaf (.bool false))]), (.str "range", .node false [(.str "dtype", .leaf (.str "list")), (.str "default-value", .leaf (.num 1)), (.str "list-dtype", .leaf (.str "int")), (.str "value-range", .node true [(.idx 0, .leaf (.num 0)), (.idx 1, .leaf .null)]), (.str "inclusive", .leaf (.bool false))])])]), (.str "n_bridging_distributions", .node false [(.str "sweepable", .leaf (.bool true)), (.str "optional", .leaf (.bool true)), (.str "exclude", .leaf (.bool false)), (.str "sweep", .node false [(.str "default", .node false [(.str "dtype", .leaf (.str "int")), (.str "default-value", .leaf (.num 1)), (.str "value-range", .node true [(.idx 0, .leaf (.num 0)), (.idx 1, .leaf .null)]), (.str "inclusive", .leaf (.bool false))]), (.str "range", .node false [(.str "dtype", .leaf (.str "list")), (.str "default-value", .leaf (.num 1)), (.str "list-dtype", .leaf (.str "int")), (.str "value-range", .node true [(.idx 0, .leaf (.num 0)), (.idx 1, .leaf .null)]), (.str "inclusive", .leaf (.bool false))])])]), (.str "leapfrog_step_size", .node false [(.str "sweepable", .leaf (.bool true)), (.str "optional", .leaf (.bool true)), (.str "exclude", .leaf (.bool false)), (.str "sweep", .node false [(.str "default", .node false [(.str "dtype", .leaf (.str "float")), (.str "default-value", .leaf (.num 10000000)), (.str "value-range", .node true [(.idx 0, .leaf (.num 0)), (.idx 1, .leaf .null)]), (.str "inclusive", .leaf (.bool false))]), (.str "range", .node false [(.str "dtype", .leaf (.str "list")), (.str "default-value", .leaf (.num 10000000)), (.str "list-dtype", .leaf (.str "float")), (.str "value-range", .node true [(.idx 0, .leaf (.num 0)), (.idx 1, .leaf .null)]), (.str "inclusive", .leaf (.bool false))])])]), (.str "ais_leapfrog_step_size", .node false [(.str "sweepable", .leaf (.bool true)), (.str "optional", .leaf (.bool true)), (.str "exclude", .leaf (.bool false)), (.str "sweep", .node false [(.str "default", .node false [(.str "dtype", .leaf (.str "float")), (.str "default-value", .leaf (.num 200000000)), (.str "value-range", .node true [(.idx 0, .leaf (.num 0)), (.idx 1, .leaf .null)]), (.str "inclusive", .leaf (.bool false))]), (.str "range", .node false [(.str "dtype", .leaf (.str "list")), (.str "default-value", .leaf (.num 200000000)), (.str "list-dtype", .leaf (.str "float")), (.str "value-range", .node true [(.idx 0, .leaf (.num 0)), (.idx 1, .leaf .null)]), (.str "inclusive", .leaf (.bool false))])])])]), (.str "contingency_table", .node false [(.str "sweepable", .leaf (.bool false)), (.str "optional", .leaf (.bool true)), (.str "exclude", .leaf (.bool false)), (.str "table_steps", .node false [(.str "sweepable", .leaf (.bool true)), (.str "optional", .leaf (.bool true)), (.str "exclude", .leaf (.bool false)), (.str "sweep", .node false [(.str "default", .node false [(.str "dtype", .leaf (.str "int")), (.str "default-value", .leaf (.num 1)), (.str "value-range", .node true [(.idx 0, .leaf (.num 1)), (.idx 1, .leaf .null)]), (.str "inclusive", .leaf (.bool false))]), (.str "range", .node false [(.str "dtype", .leaf (.str "list")), (.str "list-dtype", .leaf (.str "int")), (.str "default-value", .leaf (.num 1)), (.str "value-range", .node true [(.idx 0, .leaf (.num 1)), (.idx 1, .leaf .null)]), (.str "inclusive", .leaf (.bool false))])])]), (.str "proposal", .node false [(.str "sweepable", .leaf (.bool true)), (.str "optional", .leaf (.bool true)), (.str "exclude", .leaf (.bool false)), (.str "sweep", .node false [(.str "default", .node false [(.str "dtype", .leaf (.str "str")), (.str "default-value", .leaf (.str "direct_sampling")), (.str "is-any-of", .node true [(.idx 0, .leaf (.str "degree_one")), (.idx 1, .leaf (.str "degree_higher")), (.idx 2, .leaf (.str "direct_sampling"))])]), (.str "range", .node false [(.str "dtype", .leaf (.str "list")), (.str "list-dtype", .leaf (.str "str")), (.str "default-value", .leaf (.str "direct_sampling")), (.str "is-any-of", .node true [(.idx 0, .leaf (.str "degree_one")), (.idx 1, .leaf (.str "degree_higher")), (.idx 2, .leaf (.str "direct_sampling"))])])])]), (.str "table0", .node false [(.str "sweepable", .leaf (.bool false)), (.str "optional", .leaf (.bool true)), (.str "exclude", .leaf (.bool false)), (.str "dtype", .leaf (.str "str")), (.str "default-value", .leaf (.str "maximum_entropy_solution")), (.str "is-any-of", .node true [(.idx 0, .leaf (.str "direct_sampling")), (.idx 1, .leaf (.str "random_sample")), (.idx 2, .leaf (.str "maximum_entropy_solution"))])]), (.str "margin0", .node false [(.str "sweepable", .leaf (.bool false)), (.str "optional", .leaf (.bool true)), (.str "exclude", .leaf (.bool false)), (.str "dtype", .leaf (.str "str")), (.str "default-value", .leaf (.str "multinomial")), (.str "is-any-of", .node true [(.idx 0, .leaf (.str "multinomial")), (.idx 1, .leaf (.str "import"))])])])]

/-- `training` of cfg_schema.json. -/
def schema7 : Cfg := .node false [(.str "N", .node false [(.str "sweepable", .leaf (.bool true)), (.str "optional", .leaf (.bool false)), (.str "exclude", .leaf (.bool false)), (.str "sweep", .node false [(.str "default", .node false [(.str "dtype", .leaf (.str "int")), (.str "default-value", .leaf (.num 1)), (.str "valid-range", .node true [(.idx 0, .leaf (.num 1)), (.idx 1, .leaf .null)])]), (.str "range", .node false [(.str "dtype", .leaf (.str "customList")), (.str "list-dtype", .leaf (.str "int")), (.str "list-length", .node true [(.idx 0, .leaf (.num 1)), (.idx 1, .leaf .null)]), (.str "default-value", .leaf (.num 1)), (.str "valid-range", .node true [(.idx 0, .leaf (.num 1)), (.idx 1, .leaf .null)])])])]), (.str "num_steps", .node false [(.str "sweepable", .leaf (.bool true)), (.str "optional", .leaf (.bool true)), (.str "exclude", .leaf (.bool false)), (.str "sweep", .node false [(.str "default", .node false [(.str "dtype", .leaf (.str "int")), (.str "default-value", .leaf (.num 1)), (.str "valid-range", .node true [(.idx 0, .leaf (.num 1)), (.idx 1, .leaf .null)])]), (.str "range", .node false [(.str "dtype", .leaf (.str "list")), (.str "list-dtype", .leaf (.str "int")), (.str "list-length", .node true [(.idx 0, .leaf (.num 1)), (.idx 1, .leaf .null)])])])]), (.str "batch_size", .node false [(.str "sweepable", .leaf (.bool false)), (.str "optional", .leaf (.bool false)), (.str "exclude", .leaf (.bool false)), (.str "dtype", .leaf (.str "int")), (.str "default-value", .leaf (.num 1)), (.str "valid-range", .node true [(.idx 0, .leaf (.num 1)), (.idx 1, .leaf .null)])]), (.str "intensity_model", .node false [(.str "sweepable", .leaf (.bool true)), (.str "optional", .leaf (.bool false)), (.str "exclude", .leaf (.bool false)), (.str "sweep", .node false [(.str "default", .node false [(.str "dtype", .leaf (.str "str")), (.str "default-value", .leaf (.str "spatial_interaction_model")), (.str "is-any-of", .node true [(.idx 0, .leaf (.str "spatial_interaction_model")), (.idx 1, .leaf (.str "no_model"))])]), (.str "range", .node false [(.str "dtype", .leaf (.str "list")), (.str "list-dtype", .leaf (.str "str")), (.str "default-value", .node true [(.idx 0, .leaf (.str "spatial_interaction_model"))]), (.str "is-any-of", .node true [(.idx 0, .leaf (.str "spatial_interaction_model")), (.idx 1, .leaf (.str "no_model"))])])])]), (.str "to_learn", .node false [(.str "sweepable", .leaf (.bool true)), (.str "optional", .leaf (.bool true)), (.str "exclude", .leaf (.bool false)), (.str "sweep", .node false [(.str "default", .node false [(.str "dtype", .leaf (.str "list")), (.str "list-dtype", .leaf (.str "str")), (.str "default-value", .node true [(.idx 0, .leaf (.str "alpha")), (.idx 1, .leaf (.str "beta")), (.idx 2, .leaf (.str "sigma"))]), (.str "is-any-of", .node true [(.idx 0, .leaf (.str "alpha")), (.idx 1, .leaf (.str "beta")), (.idx 2, .leaf (.str "kappa")), (.idx 3, .leaf (.str "delta")), (.idx 4, .leaf (.str "sigma")), (.idx 5, .leaf (.str "noise_percentage"))])]), (.str "range", .node false [(.str "dtype", .leaf (.str "list")), (.str "list-dtype", .leaf (.str "list")), (.str "list-list-dtype", .leaf (.str "str")), (.str "default-value", .node true [(.idx 0, .leaf (.str "alpha")), (.idx 1, .leaf (.str "beta")), (.idx 2, .leaf (.str "sigma"))]), (.str "is-any-of", .node true [(.idx 0, .leaf (.str "alpha")), (.idx 1, .leaf (.str "beta")), (.idx 2, .leaf (.str "kappa")), (.idx 3, .leaf (.str "delta")), (.idx 4, .leaf (.str "sigma")), (.idx 5, .leaf (.str "noise_percentage"))])])])])]

/-- `hyperparameter_optimisation` of cfg_schema.json. -/
def schema8 : Cfg := .node false [(.str "sweepable", .leaf (.bool false)), (.str "optional", .leaf (.bool true)), (.str "exclude", .leaf (.bool false)), (.str "n_trials", .node false [(.str "sweepable", .leaf (.bool false)), (.str "optional", .leaf (.bool false)), (.str "exclude", .leaf (.bool false)), (.str "dtype", .leaf (.str "int")), (.str "default-value", .leaf (.num 1)), (.str "valid-range", .node true [(.idx 0, .leaf (.num 1)), (.idx 1, .leaf .null)])]), (.str "timeout", .node false [(.str "sweepable", .leaf (.bool false)), (.str "optional", .leaf (.bool true)), (.str "exclude", .leaf (.bool false)), (.str "dtype", .leaf (.str "int")), (.str "default-value", .leaf .null), (.str "allow-nan", .leaf (.bool true)), (.str "valid-range", .node true [(.idx 0, .leaf (.num 1)), (.idx 1, .leaf .null)])]), (.str "metric_minimise", .node false [(.str "sweepable", .leaf (.bool false)), (.str "optional", .leaf (.bool false)), (.str "exclude", .leaf (.bool false)), (.str "dtype", .leaf (.str "bool")), (.str "default-value", .leaf (.bool true))]), (.str "metric_evaluation", .node false [(.str "sweepable", .leaf (.bool false)), (.str "optional", .leaf (.bool false)), (.str "exclude", .leaf (.bool false)), (.str "dtype", .leaf (.str "str")), (.str "default-value", .leaf (.str ""))])]

/-- `xgboost` of cfg_schema.json. -/
def schema9 : Cfg := .node false [(.str "sweepable", .leaf (.bool false)), (.str "optional", .leaf (.bool true)), (.str "exclude", .leaf (.bool false)), (.str "disable_tqdm", .node false [(.str "sweepable", .leaf (.bool false)), (.str "optional", .leaf (.bool true)), (.str "exclude", .leaf (.bool false)), (.str "dtype", .leaf (.str "bool")), (.str "default-value", .leaf (.bool true))]), (.str "hyperparameters", .node false [(.str "sweepable", .leaf (.bool false)), (.str "optional", .leaf (.bool true)), (.str "exclude", .leaf (.bool false)), (.str "xg_max_depth", .node false [(.str "sweepable", .leaf (.bool true)), (.str "optional", .leaf (.bool true)), (.str "exclude", .leaf (.bool false)), (.str "sweep", .node false [(.str "default", .node false [(.str "dtype", .leaf (.str "int")), (.str "default-value", .leaf (.num 1)), (.str "valid-range", .node true [(.idx 0, .leaf (.num 1)), (.idx 1, .leaf .null)])]), (.str "range", .node false [(.str "dtype", .leaf (.str "list")), (.str "list-dtype", .leaf (.str "int")), (.str "default-value", .leaf (.num 1)), (.str "valid-range", .node true [(.idx 0, .leaf (.num 1)), (.idx 1, .leaf .null)]), (.str "unique-vals", .leaf (.bool true))])])]), (.str "xg_learning_rate", .node false [(.str "sweepable", .leaf (.bool true)), (.str "optional", .leaf (.bool true)), (.str "exclude", .leaf (.bool false)), (.str "sweep", .node false [(.str "default", .node false [(.str "dtype", .leaf (.str "float")), (.str "default-value", .leaf (.num 500000000)), (.str "valid-range", .node true [(.idx 0, .leaf (.num 0)), (.idx 1, .leaf .null)])]), (.str "range", .node false [(.str "dtype", .leaf (.str "list")), (.str "list-dtype", .leaf (.str "float")), (.str "default-value", .leaf (.num 500000000)), (.str "valid-range", .node true [(.idx 0, .leaf (.num 0)), (.idx 1, .leaf .null)]), (.str "unique-vals", .leaf (.bool true))])])]), (.str "xg_eval_metric", .node false [(.str "sweepable", .leaf (.bool true)), (.str "optional", .leaf (.bool true)), (.str "exclude", .leaf (.bool false)), (.str "sweep", .node false [(.str "default", .node false [(.str "dtype", .leaf (.str "str")), (.str "default-value", .leaf (.str "rmse"))]), (.str "range", .node false [(.str "dtype", .leaf (.str "list")), (.str "list-dtype", .leaf (.str "str")), (.str "default-value", .leaf (.str "rmse")), (.str "unique-vals", .leaf (.bool true))])])]), (.str "xg_gpu_id", .node false [(.str "sweepable", .leaf (.bool true)), (.str "optional", .leaf (.bool true)), (.str "exclude", .leaf (.bool false)), (.str "sweep", .node false [(.str "default", .node false [(.str "dtype", .leaf (.str "int")), (.str "default-value", .leaf (.num 0)), (.str "valid-range", .node true [(.idx 0, .leaf (.num 0)), (.idx 1, .leaf .null)])]), (.str "range", .node false [(.str "dtype", .leaf (.str "list")), (.str "list-dtype", .leaf (.str "int")), (.str "default-value", .leaf (.num 0)), (.str "valid-range", .node true [(.idx 0, .leaf (.num 0)), (.idx 1, .leaf .null)]), (.str "unique-vals", .leaf (.bool true))])])]), (.str "xg_tree_method", .node false [(.str "sweepable", .leaf (.bool true)), (.str "optional", .leaf (.bool true)), (.str "exclude", .leaf (.bool false)), (.str "sweep", .node false [(.str "default", .node false [(.str "dtype", .leaf (.str "str")), (.str "default-value", .leaf (.str "gpu_hist"))]), (.str "range", .node false [(.str "dtype", .leaf (.str "list")), (.str "list-dtype", .leaf (.str "str")), (.str "default-value", .leaf (.str "gpu_hist")), (.str "unique-vals", .leaf (.bool true))])])]), (.str "xg_max_delta_step", .node false [(.str "sweepable", .leaf (.bool true)), (.str "optional", .leaf (.bool true)), (.str "exclude", .leaf (.bool false)), (.str "sweep", .node false [(.str "default", .node false [(.str "dtype", .leaf (.str "float")), (.str "default-value", .leaf (.num 2)), (.str "valid-range", .node true [(.idx 0, .leaf (.num 0)), (.idx 1, .leaf .null)])]), (.str "range", .node false [(.str "dtype", .leaf (.str "list")), (.str "list-dtype", .leaf (.str "float")), (.str "default-value", .leaf (.num 2)), (.str "valid-range", .node true [(.idx 0, .leaf (.num 0)), (.idx 1, .leaf .null)])])])]), (.str "xg_min_child_weight", .node false [(.str "sweepable", .leaf (.bool true)), (.str "optional", .leaf (.bool true)), (.str "exclude", .leaf (.bool false)), (.str "sweep", .node false [(.str "default", .node false [(.str "dtype", .leaf (.str "float")), (.str "default-value", .leaf (.num 4)), (.str "valid-range", .node true [(.idx 0, .leaf (.num 0)), (.idx 1, .leaf .null)])]), (.str "range", .node false [(.str "dtype", .leaf (.str "list")), (.str "list-dtype", .leaf (.str "float")), (.str "default-value", .leaf (.num 4)), (.str "valid-range", .node true [(.idx 0, .leaf (.num 0)), (.idx 1, .leaf .null)])])])]), (.str "xg_alpha", .node false [(.str "sweepable", .leaf (.bool true)), (.str "optional", .leaf (.bool true)), (.str "exclude", .leaf (.bool false)), (.str "sweep", .node false [(.str "default", .node false [(.str "dtype", .leaf (.str "float")), (.str "default-value", .leaf (.num 500000000)), (.str "valid-range", .node true [(.idx 0, .leaf (.num 0)), (.idx 1, .leaf .null)])]), (.str "range", .node false [(.str "dtype", .leaf (.str "list")), (.str "list-dtype", .leaf (.str "float")), (.str "default-value", .leaf (.num 500000000)), (.str "valid-range", .node true [(.idx 0, .leaf (.num 0)), (.idx 1, .leaf .null)]), (.str "unique-vals", .leaf (.bool true))])])]), (.str "xg_lambda", .node false [(.str "sweepable", .leaf (.bool true)), (.str "optional", .leaf (.bool true)), (.str "exclude", .leaf (.bool false)), (.str "sweep", .node false [(.str "default", .node false [(.str "dtype", .leaf (.str "float")), (.str "default-value", .leaf (.num 5)), (.str "valid-range", .node true [(.idx 0, .leaf (.num 0)), (.idx 1, .leaf .null)])]), (.str "range", .node false [(.str "dtype", .leaf (.str "list")), (.str "list-dtype", .leaf (.str "float")), (.str "default-value", .leaf (.num 5)), (.str "valid-range", .node true [(.idx 0, .leaf (.num 0)), (.idx 1, .leaf .null)]), (.str "unique-vals", .leaf (.bool true))])])]), (.str "xg_gamma", .node false [(.str "sweepable", .leaf (.bool true)), (.str "optional", .leaf (.bool true)), (.str "exclude", .leaf (.bool false)), (.str "sweep", .node false [(.str "default", .node false [(.str "dtype", .leaf (.str "float")), (.str "default-value", .leaf (.num 500000000)), (.str "valid-range", .node true [(.idx 0, .leaf (.num 0)), (.idx 1, .leaf .null)])]), (.str "range", .node false [(.str "dtype", .leaf (.str "list")), (.str "list-dtype", .leaf (.str "float")), (.str "default-value", .leaf (.num 500000000)), (.str "valid-range", .node true [(.idx 0, .leaf (.num 0)), (.idx 1, .leaf .null)]), (.str "unique-vals", .leaf (.bool true))])])]), (.str "xg_subsample", .node false [(.str "sweepable", .leaf (.bool true)), (.str "optional", .leaf (.bool true)), (.str "exclude", .leaf (.bool false)), (.str "sweep", .node false [(.str "default", .node false [(.str "dtype", .leaf (.str "float")), (.str "default-value", .leaf (.num 800000000)), (.str "valid-range", .node true [(.idx 0, .leaf (.num 0)), (.idx 1, .leaf .null)])]), (.str "range", .node false [(.str "dtype", .leaf (.str "list")), (.str "list-dtype", .leaf (.str "float")), (.str "default-value", .leaf (.num 800000000)), (.str "valid-range", .node true [(.idx 0, .leaf (.num 0)), (.idx 1, .leaf .null)]), (.str "unique-vals", .leaf (.bool true))])])])])]

/-- `random_forest` of cfg_schema.json. -/
def schema10 : Cfg := .node false [(.str "sweepable", .leaf (.bool false)), (.str "optional", .leaf (.bool true)), (.str "exclude", .leaf (.bool false)), (.str "disable_tqdm", .node false [(.str "sweepable", .leaf (.bool false)), (.str "optional", .leaf (.bool true)), (.str "exclude", .leaf (.bool false)), (.str "dtype", .leaf (.str "bool")), (.str "default-value", .leaf (.bool true))]), (.str "hyperparameters", .node false [(.str "sweepable", .leaf (.bool false)), (.str "optional", .leaf (.bool true)), (.str "exclude", .leaf (.bool false)), (.str "rf_oob_score", .node false [(.str "sweepable", .leaf (.bool true)), (.str "optional", .leaf (.bool true)), (.str "exclude", .leaf (.bool false)), (.str "sweep", .node false [(.str "default", .node false [(.str "dtype", .leaf (.str "bool")), (.str "default-value", .leaf (.bool true))]), (.str "range", .node false [(.str "dtype", .leaf (.str "list")), (.str "list-dtype", .leaf (.str "bool")), (.str "default-value", .leaf (.bool true)), (.str "unique-vals", .leaf (.bool true))])])]), (.str "rf_max_depth", .node false [(.str "sweepable", .leaf (.bool true)), (.str "optional", .leaf (.bool true)), (.str "exclude", .leaf (.bool false)), (.str "sweep", .node false [(.str "default", .node false [(.str "dtype", .leaf (.str "int")), (.str "default-value", .leaf .null), (.str "allow-nan", .leaf (.bool true)), (.str "valid-range", .node true [(.idx 0, .leaf (.num 1)), (.idx 1, .leaf .null)])]), (.str "range", .node false [(.str "dtype", .leaf (.str "list")), (.str "list-dtype", .leaf (.str "int")), (.str "default-value", .leaf .null), (.str "valid-range", .node true [(.idx 0, .leaf (.num 1)), (.idx 1, .leaf .null)]), (.str "allow-nan", .leaf (.bool true)), (.str "unique-vals", .leaf (.bool true))])])]), (.str "rf_min_samples_split", .node false [(.str "sweepable", .leaf (.bool true)), (.str "optional", .leaf (.bool true)), (.str "exclude", .leaf (.bool false)), (.str "sweep", .node false [(.str "default", .node false [(.str "dtype", .leaf (.str "int")), (.str "default-value", .leaf (.num 10)), (.str "valid-range", .node true [(.idx 0, .leaf (.num 1)), (.idx 1, .leaf .null)])]), (.str "range", .node false [(.str "dtype", .leaf (.str "list")), (.str "list-dtype", .leaf (.str "int")), (.str "default-value", .leaf (.num 10)), (.str "valid-range", .node true [(.idx 0, .leaf (.num 1)), (.idx 1, .leaf .null)]), (.str "unique-vals", .leaf (.bool true))])])]), (.str "rf_min_samples_leaf", .node false [(.str "sweepable", .leaf (.bool true)), (.str "optional", .leaf (.bool true)), (.str "exclude", .leaf (.bool false)), (.str "sweep", .node false [(.str "default", .node false [(.str "dtype", .leaf (.str "int")), (.str "default-value", .leaf (.num 3)), (.str "valid-range", .node true [(.idx 0, .leaf (.num 1)), (.idx 1, .leaf .null)])]), (.str "range", .node false [(.str "dtype", .leaf (.str "list")), (.str "list-dtype", .leaf (.str "int")), (.str "default-value", .leaf (.num 3)), (.str "valid-range", .node true [(.idx 0, .leaf (.num 1)), (.idx 1, .leaf .null)]), (.str "unique-vals", .leaf (.bool true))])])])])]

/-- `gradient_boosted_regression_trees` of cfg_schema.json. -/
def schema11 : Cfg := .node false [(.str "sweepable", .leaf (.bool false)), (.str "optional", .leaf (.bool true)), (.str "exclude", .leaf (.bool false)), (.str "disable_tqdm", .node false [(.str "sweepable", .leaf (.bool false)), (.str "optional", .leaf (.bool true)), (.str "exclude", .leaf (.bool false)), (.str "dtype", .leaf (.str "bool")), (.str "default-value", .leaf (.bool true))]), (.str "hyperparameters", .node false [(.str "sweepable", .leaf (.bool false)), (.str "optional", .leaf (.bool true)), (.str "exclude", .leaf (.bool false)), (.str "gbrt_max_depth", .node false [(.str "sweepable", .leaf (.bool true)), (.str "optional", .leaf (.bool true)), (.str "exclude", .leaf (.bool false)), (.str "sweep", .node false [(.str "default", .node false [(.str "dtype", .leaf (.str "int")), (.str "default-value", .leaf .null), (.str "allow-nan", .leaf (.bool true)), (.str "valid-range", .node true [(.idx 0, .leaf (.num 1)), (.idx 1, .leaf .null)])]), (.str "range", .node false [(.str "dtype", .leaf (.str "list")), (.str "list-dtype", .leaf (.str "int")), (.str "default-value", .leaf .null), (.str "valid-range", .node true [(.idx 0, .leaf (.num 1)), (.idx 1, .leaf .null)]), (.str "allow-nan", .leaf (.bool true)), (.str "unique-vals", .leaf (.bool true))])])]), (.str "gbrt_min_samples_split", .node false [(.str "sweepable", .leaf (.bool true)), (.str "optional", .leaf (.bool true)), (.str "exclude", .leaf (.bool false)), (.str "sweep", .node false [(.str "default", .node false [(.str "dtype", .leaf (.str "int")), (.str "default-value", .leaf (.num 10)), (.str "valid-range", .node true [(.idx 0, .leaf (.num 1)), (.idx 1, .leaf .null)])]), (.str "range", .node false [(.str "dtype", .leaf (.str "list")), (.str "list-dtype", .leaf (.str "int")), (.str "default-value", .leaf (.num 10)), (.str "valid-range", .node true [(.idx 0, .leaf (.num 1)), (.idx 1, .leaf .null)]), (.str "unique-vals", .leaf (.bool true))])])]), (.str "gbrt_min_samples_leaf", .node false [(.str "sweepable", .leaf (.bool true)), (.str "optional", .leaf (.bool true)), (.str "exclude", .leaf (.bool false)), (.str "sweep", .node false [(.str "default", .node false [(.str "dtype", .leaf (.str "int")), (.str "default-value", .leaf (.num 1)), (.str "valid-range", .node true [(.idx 0, .leaf (.num 1)), (.idx 1, .leaf .null)])]), (.str "range", .node false [(.str "dtype", .leaf (.str "list")), (.str "list-dtype", .leaf (.str "int")), (.str "default-value", .leaf (.num 1)), (.str "valid-range", .node true [(.idx 0, .leaf (.num 1)), (.idx 1, .leaf .null)]), (.str "unique-vals", .leaf (.bool true))])])])])]

/-- `graph_attention_network` of cfg_schema.json. -/
def schema12 : Cfg := .node false [(.str "sweepable", .leaf (.bool false)), (.str "optional", .leaf (.bool true)), (.str "exclude", .leaf (.bool false)), (.str "disable_tqdm", .node false [(.str "sweepable", .leaf (.bool false)), (.str "optional", .leaf (.bool true)), (.str "exclude", .leaf (.bool false)), (.str "dtype", .leaf (.str "bool")), (.str "default-value", .leaf (.bool true))]), (.str "hyperparameters", .node false [(.str "sweepable", .leaf (.bool false)), (.str "optional", .leaf (.bool true)), (.str "exclude", .leaf (.bool false)), (.str "gat_nodes_per_layer", .node false [(.str "sweepable", .leaf (.bool true)), (.str "optional", .leaf (.bool true)), (.str "exclude", .leaf (.bool false)), (.str "sweep", .node false [(.str "default", .node false [(.str "dtype", .leaf (.str "int")), (.str "default-value", .leaf (.num 128)), (.str "valid-range", .node true [(.idx 0, .leaf (.num 1)), (.idx 1, .leaf .null)])]), (.str "range", .node false [(.str "dtype", .leaf (.str "list")), (.str "list-dtype", .leaf (.str "int")), (.str "default-value", .leaf (.num 128)), (.str "valid-range", .node true [(.idx 0, .leaf (.num 1)), (.idx 1, .leaf .null)]), (.str "unique-vals", .leaf (.bool true))])])]), (.str "gat_num_hidden_layers", .node false [(.str "sweepable", .leaf (.bool true)), (.str "optional", .leaf (.bool true)), (.str "exclude", .leaf (.bool false)), (.str "sweep", .node false [(.str "default", .node false [(.str "dtype", .leaf (.str "int")), (.str "default-value", .leaf (.num 1)), (.str "valid-range", .node true [(.idx 0, .leaf (.num 1)), (.idx 1, .leaf .null)])]), (.str "range", .node false [(.str "dtype", .leaf (.str "list")), (.str "list-dtype", .leaf (.str "int")), (.str "default-value", .leaf (.num 1)), (.str "valid-range", .node true [(.idx 0, .leaf (.num 1)), (.idx 1, .leaf .null)]), (.str "unique-vals", .leaf (.bool true))])])]), (.str "gat_dropout", .node false [(.str "sweepable", .leaf (.bool true)), (.str "optional", .leaf (.bool true)), (.str "exclude", .leaf (.bool false)), (.str "sweep", .node false [(.str "default", .node false [(.str "dtype", .leaf (.str "int")), (.str "default-value", .leaf (.num 0)), (.str "valid-range", .node true [(.idx 0, .leaf (.num 0)), (.idx 1, .leaf .null)])]), (.str "range", .node false [(.str "dtype", .leaf (.str "list")), (.str "list-dtype", .leaf (.str "int")), (.str "default-value", .leaf (.num 0)), (.str "valid-range", .node true [(.idx 0, .leaf (.num 0)), (.idx 1, .leaf .null)]), (.str "unique-vals", .leaf (.bool true))])])]), (.str "gat_reg_param", .node false [(.str "sweepable", .leaf (.bool true)), (.str "optional", .leaf (.bool true)), (.str "exclude", .leaf (.bool false)), (.str "sweep", .node false [(.str "default", .node false [(.str "dtype", .leaf (.str "int")), (.str "default-value", .leaf (.num 0)), (.str "valid-range", .node true [(.idx 0, .leaf (.num 0)), (.idx 1, .leaf .null)])]), (.str "range", .node false [(.str "dtype", .leaf (.str "list")), (.str "list-dtype", .leaf (.str "int")), (.str "default-value", .leaf (.num 0)), (.str "valid-range", .node true [(.idx 0, .leaf (.num 0)), (.idx 1, .leaf .null)]), (.str "unique-vals", .leaf (.bool true))])])]), (.str "gat_negative_sampling_rate", .node false [(.str "sweepable", .leaf (.bool true)), (.str "optional", .leaf (.bool true)), (.str "exclude", .leaf (.bool false)), (.str "sweep", .node false [(.str "default", .node false [(.str "dtype", .leaf (.str "int")), (.str "default-value", .leaf (.num 0)), (.str "valid-range", .node true [(.idx 0, .leaf (.num 0)), (.idx 1, .leaf .null)])]), (.str "range", .node false [(.str "dtype", .leaf (.str "list")), (.str "list-dtype", .leaf (.str "int")), (.str "default-value", .leaf (.num 0)), (.str "valid-range", .node true [(.idx 0, .leaf (.num 0)), (.idx 1, .leaf .null)]), (.str "unique-vals", .leaf (.bool true))])])]), (.str "gat_grad_norm", .node false [(.str "sweepable", .leaf (.bool true)), (.str "optional", .leaf (.bool true)), (.str "exclude", .leaf (.bool false)), (.str "sweep", .node false [(.str "default", .node false [(.str "dtype", .leaf (.str "float")), (.str "default-value", .leaf (.num 1)), (.str "valid-range", .node true [(.idx 0, .leaf (.num 1)), (.idx 1, .leaf .null)])]), (.str "range", .node false [(.str "dtype", .leaf (.str "list")), (.str "list-dtype", .leaf (.str "float")), (.str "default-value", .leaf (.num 1)), (.str "valid-range", .node true [(.idx 0, .leaf (.num 1)), (.idx 1, .leaf .null)]), (.str "unique-vals", .leaf (.bool true))])])]), (.str "gat_optimizer", .node false [(.str "sweepable", .leaf (.bool true)), (.str "optional", .leaf (.bool true)), (.str "exclude", .leaf (.bool false)), (.str "sweep", .node false [(.str "default", .node false [(.str "dtype", .leaf (.str "str")), (.str "default-value", .leaf (.str "Adam")), (.str "is-any-of", .node true [(.idx 0, .leaf (.str "Adagrad")), (.idx 1, .leaf (.str "Adam")), (.idx 2, .leaf (.str "AdamW")), (.idx 3, .leaf (.str "SparseAdam")), (.idx 4, .leaf (.str "Adamax")), (.idx 5, .leaf (.str "ASGD")), (.idx 6, .leaf (.str "LBFGS")), (.idx 7, .leaf (.str "NAdam")), (.idx 8, .leaf (.str "RAdam")), (.idx 9, .leaf (.str "RMSprop")), (.idx 10, .leaf (.str "Rprop")), (.idx 11, .leaf (.str "SGD"))])]), (.str "range", .node false [(.str "dtype", .leaf (.str "list")), (.str "list-dtype", .leaf (.str "str")), (.str "default-value", .leaf (.str "Adam")), (.str "is-any-of", .node true [(.idx 0, .leaf (.str "Adagrad")), (.idx 1, .leaf (.str "Adam")), (.idx 2, .leaf (.str "AdamW")), (.idx 3, .leaf (.str "SparseAdam")), (.idx 4, .leaf (.str "Adamax")), (.idx 5, .leaf (.str "ASGD")), (.idx 6, .leaf (.str "LBFGS")), (.idx 7, .leaf (.str "NAdam")), (.idx 8, .leaf (.str "RAdam")), (.idx 9, .leaf (.str "RMSprop")), (.idx 10, .leaf (.str "Rprop")), (.idx 11, .leaf (.str "SGD"))]), (.str "unique-vals", .leaf (.bool true))])])]), (.str "gat_learning_rate", .node false [(.str "sweepable", .leaf (.bool true)), (.str "optional", .leaf (.bool true)), (.str "exclude", .leaf (.bool false)), (.str "sweep", .node false [(.str "default", .node false [(.str "dtype", .leaf (.str "float")), (.str "default-value", .leaf (.num 2000000)), (.str "valid-range", .node true [(.idx 0, .leaf (.num 0)), (.idx 1, .leaf (.num 1))])]), (.str "range", .node false [(.str "dtype", .leaf (.str "list")), (.str "list-dtype", .leaf (.str "float")), (.str "default-value", .leaf (.num 2000000)), (.str "valid-range", .node true [(.idx 0, .leaf (.num 0)), (.idx 1, .leaf (.num 1))]), (.str "unique-vals", .leaf (.bool true))])])]), (.str "gat_multitask_weights", .node false [(.str "sweepable", .leaf (.bool true)), (.str "optional", .leaf (.bool true)), (.str "exclude", .leaf (.bool false)), (.str "sweep", .node false [(.str "default", .node false [(.str "dtype", .leaf (.str "list")), (.str "list-dtype", .leaf (.str "float")), (.str "default-value", .leaf (.num 0)), (.str "valid-range", .node true [(.idx 0, .leaf (.num 0)), (.idx 1, .leaf (.num 1))])]), (.str "range", .node false [(.str "dtype", .leaf (.str "list")), (.str "list-dtype", .leaf (.str "list")), (.str "list-list-dtype", .leaf (.str "float")), (.str "default-value", .leaf (.num 0)), (.str "valid-range", .node true [(.idx 0, .leaf (.num 0)), (.idx 1, .leaf (.num 1))])])])])])]

/-- `neural_network` of cfg_schema.json. -/
def schema13 : Cfg := .node false [(.str "sweepable", .leaf (.bool false)), (.str "optional", .leaf (.bool true)), (.str "exclude", .leaf (.bool false)), (.str "disable_tqdm", .node false [(.str "sweepable", .leaf (.bool false)), (.str "optional", .leaf (.bool true)), (.str "exclude", .leaf (.bool false)), (.str "dtype", .leaf (.str "bool")), (.str "default-value", .leaf (.bool true))]), (.str "loss", .node false [(.str "sweepable", .leaf (.bool false)), (.str "optional", .leaf (.bool true)), (.str "exclude", .leaf (.bool false)), (.str "loss_name", .node false [(.str "sweepable", .leaf (.bool true)), (.str "optional", .leaf (.bool true)), (.str "exclude", .leaf (.bool false)), (.str "sweep", .node false [(.str "default", .node false [(.str "dtype", .leaf (.str "list")), (.str "list-dtype", .leaf (.str "str")), (.str "list-length", .node true [(.idx 0, .leaf (.num 1)), (.idx 1, .leaf .null)]), (.str "default-value", .leaf (.str "dest_attraction_ts_loss")), (.str "is-any-of", .node true [(.idx 0, .leaf (.str "dest_attraction_ts_loss")), (.idx 1, .leaf (.str "dest_attraction_ts_likelihood_loss")), (.idx 2, .leaf (.str "table_loss")), (.idx 3, .leaf (.str "table_likelihood_loss")), (.idx 4, .leaf (.str "total_table_distance_loss")), (.idx 5, .leaf (.str "total_table_distance_likelihood_loss")), (.idx 6, .leaf (.str "total_intensity_distance_loss")), (.idx 7, .leaf (.str "total_intensity_distance_likelihood_loss"))])]), (.str "range", .node false [(.str "dtype", .leaf (.str "list")), (.str "list-dtype", .leaf (.str "list")), (.str "list-length", .node true [(.idx 0, .leaf (.num 1)), (.idx 1, .leaf .null)]), (.str "list-list-dtype", .leaf (.str "str")), (.str "default-value", .leaf (.str "dest_attraction_ts_loss")), (.str "is-any-of", .node true [(.idx 0, .leaf (.str "dest_attraction_ts_loss")), (.idx 1, .leaf (.str "dest_attraction_ts_likelihood_loss")), (.idx 2, .leaf (.str "table_loss")), (.idx 3, .leaf (.str "table_likelihood_loss")), (.idx 4, .leaf (.str "total_table_distance_loss")), (.idx 5, .leaf (.str "total_table_distance_likelihood_loss")), (.idx 6, .leaf (.str "total_intensity_distance_loss")), (.idx 7, .leaf (.str "total_intensity_distance_likelihood_loss"))])])])]), (.str "loss_function", .node false [(.str "sweepable", .leaf (.bool true)), (.str "optional", .leaf (.bool true)), (.str "exclude", .leaf (.bool false)), (.str "sweep", .node false [(.str "default", .node false [(.str "dtype", .leaf (.str "list")), (.str "list-dtype", .leaf (.str "str")), (.str "list-length", .node true [(.idx 0, .leaf (.num 1)), (.idx 1, .leaf .null)]), (.str "default-value", .leaf (.str "mseloss"))]), (.str "range", .node false [(.str "dtype", .leaf (.str "list")), (.str "list-dtype", .leaf (.str "list")), (.str "list-length", .node true [(.idx 0, .leaf (.num 1)), (.idx 1, .leaf .null)]), (.str "list-list-dtype", .leaf (.str "str")), (.str "default-value", .leaf (.str "mseloss"))])])]), (.str "loss_kwargs", .node false [(.str "sweepable", .leaf (.bool true)), (.str "optional", .leaf (.bool true)), (.str "exclude", .leaf (.bool false)), (.str "sweep", .node false [(.str "default", .node false [(.str "dtype", .leaf (.str "dict")), (.str "dict-key-dtype", .leaf (.str "str")), (.str "dict-value-dtype", .leaf (.str "entry")), (.str "default-key", .leaf (.str "no-key")), (.str "default-value", .leaf (.str "no-value"))]), (.str "range", .node false [(.str "dtype", .leaf (.str "list")), (.str "list-dtype", .leaf (.str "dict")), (.str "list-dict-key-dtype", .leaf (.str "str")), (.str "list-dict-value-dtype", .leaf (.str "entry")), (.str "list-dict-default-key", .leaf (.str "no-key")), (.str "list-dict-default-value", .leaf (.str "no-value"))])])])]), (.str "hyperparameters", .node false [(.str "sweepable", .leaf (.bool false)), (.str "optional", .leaf (.bool true)), (.str "exclude", .leaf (.bool false)), (.str "num_hidden_layers", .node false [(.str "sweepable", .leaf (.bool true)), (.str "optional", .leaf (.bool true)), (.str "exclude", .leaf (.bool false)), (.str "sweep", .node false [(.str "default", .node false [(.str "dtype", .leaf (.str "int")), (.str "default-value", .leaf (.num 1)), (.str "valid-range", .node true [(.idx 0, .leaf (.num 1)), (.idx 1, .leaf .null)])]), (.str "range", .node false [(.str "dtype", .leaf (.str "list")), (.str "list-dtype", .leaf (.str "int")), (.str "default-value", .leaf (.num 1)), (.str "valid-range", .node true [(.idx 0, .leaf (.num 1)), (.idx 1, .leaf .null)]), (.str "unique-vals", .leaf (.bool true))])])]), (.str "optimizer", .node false [(.str "sweepable", .leaf (.bool true)), (.str "optional", .leaf (.bool true)), (.str "exclude", .leaf (.bool false)), (.str "sweep", .node false [(.str "default", .node false [(.str "dtype", .leaf (.str "str")), (.str "default-value", .leaf (.str "Adam")), (.str "is-any-of", .node true [(.idx 0, .leaf (.str "Adagrad")), (.idx 1, .leaf (.str "Adam")), (.idx 2, .leaf (.str "AdamW")), (.idx 3, .leaf (.str "SparseAdam")), (.idx 4, .leaf (.str "Adamax")), (.idx 5, .leaf (.str "ASGD")), (.idx 6, .leaf (.str "LBFGS")), (.idx 7, .leaf (.str "NAdam")), (.idx 8, .leaf (.str "RAdam")), (.idx 9, .leaf (.str "RMSprop")), (.idx 10, .leaf (.str "Rprop")), (.idx 11, .leaf (.str "SGD"))])]), (.str "range", .node false [(.str "dtype", .leaf (.str "list")), (.str "list-dtype", .leaf (.str "str")), (.str "default-value", .leaf (.str "Adam")), (.str "is-any-of", .node true [(.idx 0, .leaf (.str "Adagrad")), (.idx 1, .leaf (.str "Adam")), (.idx 2, .leaf (.str "AdamW")), (.idx 3, .leaf (.str "SparseAdam")), (.idx 4, .leaf (.str "Adamax")), (.idx 5, .leaf (.str "ASGD")), (.idx 6, .leaf (.str "LBFGS")), (.idx 7, .leaf (.str "NAdam")), (.idx 8, .leaf (.str "RAdam")), (.idx 9, .leaf (.str "RMSprop")), (.idx 10, .leaf (.str "Rprop")), (.idx 11, .leaf (.str "SGD"))]), (.str "unique-vals", .leaf (.bool true))])])]), (.str "learning_rate", .node false [(.str "sweepable", .leaf (.bool true)), (.str "optional", .leaf (.bool true)), (.str "exclude", .leaf (.bool false)), (.str "sweep", .node false [(.str "default", .node false [(.str "dtype", .leaf (.str "float")), (.str "default-value", .leaf (.num 2000000)), (.str "valid-range", .node true [(.idx 0, .leaf (.num 0)), (.idx 1, .leaf (.num 1))])]), (.str "range", .node false [(.str "dtype", .leaf (.str "list")), (.str "list-dtype", .leaf (.str "float")), (.str "default-value", .leaf (.num 2000000)), (.str "valid-range", .node true [(.idx 0, .leaf (.num 0)), (.idx 1, .leaf (.num 1))]), (.str "unique-vals", .leaf (.bool true))])])]), (.str "biases", .node false [(.str "sweepable", .leaf (.bool false)), (.str "optional", .leaf (.bool true)), (.str "exclude", .leaf (.bool false)), (.str "default", .node false [(.str "sweepable", .leaf (.bool false)), (.str "optional", .leaf (.bool true)), (.str "exclude", .leaf (.bool false)), (.str "dtype", .leaf (.str "list")), (.str "list-dtype", .leaf (.str "float")), (.str "default-value", .node true [(.idx 0, .leaf (.num 0)), (.idx 1, .leaf (.num 4))]), (.str "valid-range", .node true [(.idx 0, .leaf .null), (.idx 1, .leaf .null)])]), (.str "layer_specific", .node false [(.str "sweepable", .leaf (.bool false)), (.str "optional", .leaf (.bool true)), (.str "exclude", .leaf (.bool false)), (.str "dtype", .leaf (.str "dict")), (.str "dict-key-dtype", .leaf (.str "str")), (.str "dict-value-dtype", .leaf (.str "float")), (.str "default-value", .node false []), (.str "key-valid-range", .node true [(.idx 0, .leaf (.num 0)), (.idx 1, .leaf .null)]), (.str "value-valid-range", .node true [(.idx 0, .leaf .null), (.idx 1, .leaf .null)])])]), (.str "nodes_per_layer", .node false [(.str "sweepable", .leaf (.bool false)), (.str "optional", .leaf (.bool true)), (.str "exclude", .leaf (.bool false)), (.str "default", .node false [(.str "sweepable", .leaf (.bool false)), (.str "optional", .leaf (.bool true)), (.str "exclude", .leaf (.bool false)), (.str "dtype", .leaf (.str "int")), (.str "default-value", .leaf (.num 20)), (.str "valid-range", .node true [(.idx 0, .leaf (.num 1)), (.idx 1, .leaf .null)])]), (.str "layer_specific", .node false [(.str "sweepable", .leaf (.bool false)), (.str "optional", .leaf (.bool true)), (.str "exclude", .leaf (.bool false)), (.str "dtype", .leaf (.str "dict")), (.str "dict-key-dtype", .leaf (.str "str")), (.str "dict-value-dtype", .leaf (.str "int")), (.str "default-value", .node false []), (.str "key-valid-range", .node true [(.idx 0, .leaf (.num 0)), (.idx 1, .leaf .null)]), (.str "value-valid-range", .node true [(.idx 0, .leaf .null), (.idx 1, .leaf .null)])])]), (.str "activation_funcs", .node false [(.str "sweepable", .leaf (.bool false)), (.str "optional", .leaf (.bool true)), (.str "exclude", .leaf (.bool false)), (.str "default", .node false [(.str "sweepable", .leaf (.bool false)), (.str "optional", .leaf (.bool true)), (.str "exclude", .leaf (.bool false)), (.str "dtype", .leaf (.str "str")), (.str "default-value", .leaf (.str "linear")), (.str "is-any-of", .node true [(.idx 0, .leaf (.str "abs")), (.idx 1, .leaf (.str "celu")), (.idx 2, .leaf (.str "cos")), (.idx 3, .leaf (.str "cosine")), (.idx 4, .leaf (.str "elu")), (.idx 5, .leaf (.str "gelu")), (.idx 6, .leaf (.str "hardshrink")), (.idx 7, .leaf (.str "hardsigmoid")), (.idx 8, .leaf (.str "hardswish")), (.idx 9, .leaf (.str "hardtanh")), (.idx 10, .leaf (.str "leakyrelu")), (.idx 11, .leaf (.str "linear")), (.idx 12, .leaf (.str "logsigmoid")), (.idx 13, .leaf (.str "mish")), (.idx 14, .leaf (.str "prelu")), (.idx 15, .leaf (.str "relu")), (.idx 16, .leaf (.str "rrelu")), (.idx 17, .leaf (.str "selu")), (.idx 18, .leaf (.str "sigmoid")), (.idx 19, .leaf (.str "silu")), (.idx 20, .leaf (.str "sin")), (.idx 21, .leaf (.str "sine")), (.idx 22, .leaf (.str "softplus")), (.idx 23, .leaf (.str "softshrink")), (.idx 24, .leaf (.str "swish")), (.idx 25, .leaf (.str "tanh")), (.idx 26, .leaf (.str "tanhshrink")), (.idx 27, .leaf (.str "threshold"))])]), (.str "layer_specific", .node false [(.str "sweepable", .leaf (.bool false)), (.str "optional", .leaf (.bool true)), (.str "exclude", .leaf (.bool false)), (.str "dtype", .leaf (.str "dict")), (.str "dict-key-dtype", .leaf (.str "strInt")), (.str "dict-value-dtype", .leaf (.str "str")), (.str "default-value", .node false [(.str "1", .leaf (.str "abs"))]), (.str "key-valid-range", .node true [(.idx 0, .leaf (.num 0)), (.idx 1, .leaf .null)]), (.str "value-is-any-of", .node true [(.idx 0, .leaf (.str "abs")), (.idx 1, .leaf (.str "celu")), (.idx 2, .leaf (.str "cos")), (.idx 3, .leaf (.str "cosine")), (.idx 4, .leaf (.str "elu")), (.idx 5, .leaf (.str "gelu")), (.idx 6, .leaf (.str "hardshrink")), (.idx 7, .leaf (.str "hardsigmoid")), (.idx 8, .leaf (.str "hardswish")), (.idx 9, .leaf (.str "hardtanh")), (.idx 10, .leaf (.str "leakyrelu")), (.idx 11, .leaf (.str "linear")), (.idx 12, .leaf (.str "logsigmoid")), (.idx 13, .leaf (.str "mish")), (.idx 14, .leaf (.str "prelu")), (.idx 15, .leaf (.str "relu")), (.idx 16, .leaf (.str "rrelu")), (.idx 17, .leaf (.str "selu")), (.idx 18, .leaf (.str "sigmoid")), (.idx 19, .leaf (.str "silu")), (.idx 20, .leaf (.str "sin")), (.idx 21, .leaf (.str "sine")), (.idx 22, .leaf (.str "softplus")), (.idx 23, .leaf (.str "softshrink")), (.idx 24, .leaf (.str "swish")), (.idx 25, .leaf (.str "tanh")), (.idx 26, .leaf (.str "tanhshrink")), (.idx 27, .leaf (.str "threshold"))])])])])]

/-- `experiments` of cfg_schema.json. -/
def schema14 : Cfg := .node true [(.idx 0, .node false [(.str "type", .node false [(.str "sweepable", .leaf (.bool false)), (.str "optional", .leaf (.bool false)), (.str "exclude", .leaf (.bool false)), (.str "dtype", .leaf (.str "str")), (.str "default-value", .leaf (.str "SIM_NN")), (.str "is-any-of", .node true [(.idx 0, .leaf (.str "RSquared_Analysis")), (.idx 1, .leaf (.str "LogTarget_Analysis")), (.idx 2, .leaf (.str "DataGeneration")), (.idx 3, .leaf (.str "SIM_MCMC")), (.idx 4, .leaf (.str "JointTableSIM_MCMC")), (.idx 5, .leaf (.str "Table_MCMC")), (.idx 6, .leaf (.str "SIM_NN")), (.idx 7, .leaf (.str "NonJointTableSIM_NN")), (.idx 8, .leaf (.str "JointTableSIM_NN")), (.idx 9, .leaf (.str "XGBoost_Comparison")), (.idx 10, .leaf (.str "RandomForest_Comparison")), (.idx 11, .leaf (.str "GBRT_Comparison")), (.idx 12, .leaf (.str "GraphAttentionNetwork_Comparison")), (.idx 13, .leaf (.str "ExperimentHyperparameterOptimisation"))])]), (.str "comment", .node false [(.str "sweepable", .leaf (.bool false)), (.str "optional", .leaf (.bool true)), (.str "exclude", .leaf (.bool false)), (.str "dtype", .leaf (.str "str")), (.str "default-value", .leaf (.str ""))]), (.str "disable_tqdm", .node false [(.str "sweepable", .leaf (.bool false)), (.str "optional", .leaf (.bool true)), (.str "exclude", .leaf (.bool false)), (.str "dtype", .leaf (.str "bool")), (.str "default-value", .leaf (.bool true))]), (.str "export_samples", .node false [(.str "sweepable", .leaf (.bool false)), (.str "optional", .leaf (.bool true)), (.str "exclude", .leaf (.bool false)), (.str "dtype", .leaf (.str "bool")), (.str "default-value", .leaf (.bool true))]), (.str "export_metadata", .node false [(.str "sweepable", .leaf (.bool false)), (.str "optional", .leaf (.bool true)), (.str "exclude", .leaf (.bool false)), (.str "dtype", .leaf (.str "bool")), (.str "default-value", .leaf (.bool true))]), (.str "overwrite", .node false [(.str "sweepable", .leaf (.bool false)), (.str "optional", .leaf (.bool true)), (.str "exclude", .leaf (.bool false)), (.str "dtype", .leaf (.str "bool")), (.str "default-value", .leaf (.bool true))]), (.str "validate_samples", .node false [(.str "sweepable", .leaf (.bool false)), (.str "optional", .leaf (.bool true)), (.str "exclude", .leaf (.bool false)), (.str "dtype", .leaf (.str "bool")), (.str "default-value", .leaf (.bool false))]), (.str "grid_ranges", .node false [(.str "sweepable", .leaf (.bool false)), (.str "optional", .leaf (.bool true)), (.str "exclude", .leaf (.bool false)), (.str "alpha", .node false [(.str "sweepable", .leaf (.bool false)), (.str "optional", .leaf (.bool true)), (.str "exclude", .leaf (.bool false)), (.str "dtype", .leaf (.str "dict")), (.str "dict-key-dtype", .leaf (.str "str")), (.str "dict-value-schema", .node false [(.str "min", .node false [(.str "sweepable", .leaf (.bool false)), (.str "optional", .leaf (.bool true)), (.str "exclude", .leaf (.bool false)), (.str "dtype", .leaf (.str "float")), (.str "default", .leaf (.num 0))]), (.str "max", .node false [(.str "sweepable", .leaf (.bool false)), (.str "optional", .leaf (.bool true)), (.str "exclude", .leaf (.bool false)), (.str "dtype", .leaf (.str "float")), (.str "default", .leaf (.num 2))]), (.str "n", .node false [(.str "sweepable", .leaf (.bool false)), (.str "optional", .leaf (.bool true)), (.str "exclude", .leaf (.bool false)), (.str "dtype", .leaf (.str "int")), (.str "default", .leaf (.num 100))])])]), (.str "beta", .node false [(.str "sweepable", .leaf (.bool false)), (.str "optional", .leaf (.bool true)), (.str "exclude", .leaf (.bool false)), (.str "dtype", .leaf (.str "dict")), (.str "dict-key-dtype", .leaf (.str "str")), (.str "dict-value-schema", .node false [(.str "min", .node false [(.str "sweepable", .leaf (.bool false)), (.str "optional", .leaf (.bool true)), (.str "exclude", .leaf (.bool false)), (.str "dtype", .leaf (.str "float")), (.str "default", .leaf (.num 0))]), (.str "max", .node false [(.str "sweepable", .leaf (.bool false)), (.str "optional", .leaf (.bool true)), (.str "exclude", .leaf (.bool false)), (.str "dtype", .leaf (.str "float")), (.str "default", .leaf (.num 2))]), (.str "n", .node false [(.str "sweepable", .leaf (.bool false)), (.str "optional", .leaf (.bool true)), (.str "exclude", .leaf (.bool false)), (.str "dtype", .leaf (.str "int")), (.str "default", .leaf (.num 100))])])])])])]

/-- `outputs` of cfg_schema.json. -/
def schema15 : Cfg := .node false [(.str "sweepable", .leaf (.bool false)), (.str "optional", .leaf (.bool false)), (.str "exclude", .leaf (.bool false)), (.str "chunk_size", .node false [(.str "sweepable", .leaf (.bool false)), (.str "optional", .leaf (.bool true)), (.str "exclude", .leaf (.bool false)), (.str "dtype", .leaf (.str "int")), (.str "default-value", .leaf (.num 1)), (.str "valid-range", .node true [(.idx 0, .leaf (.num 1)), (.idx 1, .leaf .null)])]), (.str "write_start", .node false [(.str "sweepable", .leaf (.bool false)), (.str "optional", .leaf (.bool true)), (.str "exclude", .leaf (.bool false)), (.str "dtype", .leaf (.str "int")), (.str "default-value", .leaf (.num 1)), (.str "valid-range", .node true [(.idx 0, .leaf (.num 1)), (.idx 1, .leaf .null)])]), (.str "write_every", .node false [(.str "sweepable", .leaf (.bool false)), (.str "optional", .leaf (.bool true)), (.str "exclude", .leaf (.bool false)), (.str "dtype", .leaf (.str "int")), (.str "default-value", .leaf (.num 1)), (.str "valid-range", .node true [(.idx 0, .leaf (.num 1)), (.idx 1, .leaf .null)])]), (.str "out_directory", .node false [(.str "sweepable", .leaf (.bool false)), (.str "optional", .leaf (.bool false)), (.str "exclude", .leaf (.bool false)), (.str "dtype", .leaf (.str "directory")), (.str "directory-exists", .leaf (.bool true)), (.str "default-value", .leaf (.str "./data/outputs/"))]), (.str "out_group", .node false [(.str "sweepable", .leaf (.bool false)), (.str "optional", .leaf (.bool false)), (.str "exclude", .leaf (.bool false)), (.str "dtype", .leaf (.str "directory")), (.str "directory-exists", .leaf (.bool false)), (.str "default-value", .leaf (.str ""))]), (.str "title", .node false [(.str "sweepable", .leaf (.bool true)), (.str "optional", .leaf (.bool true)), (.str "exclude", .leaf (.bool false)), (.str "sweep", .node false [(.str "default", .node false [(.str "dtype", .leaf (.str "str")), (.str "default-value", .leaf (.str ""))]), (.str "range", .node false [(.str "dtype", .leaf (.str "list")), (.str "list-dtype", .leaf (.str "str")), (.str "default-value", .leaf (.str ""))])])])]

/-- data/inputs/configs/schemas/cfg_schema.json. -/
def schema : Cfg := .node false [(.str "sweep_mode", schema0), (.str "log_level", schema1), (.str "inputs", schema2), (.str "contingency_table", schema3), (.str "spatial_interaction_model", schema4), (.str "harris_wilson_model", schema5), (.str "mcmc", schema6), (.str "training", schema7), (.str "hyperparameter_optimisation", schema8), (.str "xgboost", schema9), (.str "random_forest", schema10), (.str "gradient_boosted_regression_trees", schema11), (.str "graph_attention_network", schema12), (.str "neural_network", schema13), (.str "experiments", schema14), (.str "outputs", schema15)]

/-- data/inputs/configs/schemas/cfg_schema_by_experiment.json: per experiment type the entries, with the key path already split at `>`
and numeric parts turned into indices (config.py:402-407). -/
def experiments : List (String × List (List Key × Cfg)) := [
  ("DataGeneration", [([.str "harris_wilson_model", .str "parameters", .str "noise_percentage", .str "optional"], .leaf (.bool true)),
    ([.str "training", .str "N", .str "exclude"], .leaf (.bool true)),
    ([.str "xgboost", .str "exclude"], .leaf (.bool true)),
    ([.str "random_forest", .str "exclude"], .leaf (.bool true)),
    ([.str "gradient_boosted_regression_trees", .str "exclude"], .leaf (.bool true)),
    ([.str "graph_attention_network", .str "exclude"], .leaf (.bool true)),
    ([.str "hyperparameter_optimisation", .str "exclude"], .leaf (.bool true))]),
  ("RSquared_Analysis", [([.str "neural_network", .str "exclude"], .leaf (.bool true)),
    ([.str "contingency_table", .str "exclude"], .leaf (.bool true)),
    ([.str "mcmc", .str "exclude"], .leaf (.bool true)),
    ([.str "training", .str "to_learn", .str "sweepable"], .leaf (.bool false)),
    ([.str "training", .str "to_learn", .str "sweep", .str "default", .str "default-value"], .node true [(.idx 0, .leaf (.str "alpha")), (.idx 1, .leaf (.str "beta"))]),
    ([.str "training", .str "to_learn", .str "sweep", .str "default", .str "is-any-of"], .node true [(.idx 0, .leaf (.str "alpha")), (.idx 1, .leaf (.str "beta"))]),
    ([.str "xgboost", .str "exclude"], .leaf (.bool true)),
    ([.str "random_forest", .str "exclude"], .leaf (.bool true)),
    ([.str "gradient_boosted_regression_trees", .str "exclude"], .leaf (.bool true)),
    ([.str "graph_attention_network", .str "exclude"], .leaf (.bool true))]),
  ("LogTarget_Analysis", [([.str "neural_network", .str "exclude"], .leaf (.bool true)),
    ([.str "contingency_table", .str "exclude"], .leaf (.bool true)),
    ([.str "mcmc", .str "exclude"], .leaf (.bool true)),
    ([.str "xgboost", .str "exclude"], .leaf (.bool true)),
    ([.str "random_forest", .str "exclude"], .leaf (.bool true)),
    ([.str "gradient_boosted_regression_trees", .str "exclude"], .leaf (.bool true)),
    ([.str "graph_attention_network", .str "exclude"], .leaf (.bool true))]),
  ("SIM_MCMC", [([.str "training", .str "to_learn", .str "sweep", .str "default", .str "default-value"], .node true [(.idx 0, .leaf (.str "alpha")), (.idx 1, .leaf (.str "beta"))]),
    ([.str "training", .str "to_learn", .str "sweep", .str "default", .str "is-any-of"], .node true [(.idx 0, .leaf (.str "alpha")), (.idx 1, .leaf (.str "beta"))]),
    ([.str "training", .str "to_learn", .str "sweep", .str "range", .str "default-value"], .node true [(.idx 0, .node true [(.idx 0, .leaf (.str "alpha")), (.idx 1, .leaf (.str "beta"))])]),
    ([.str "training", .str "to_learn", .str "sweep", .str "range", .str "is-any-of"], .node true [(.idx 0, .leaf (.str "alpha")), (.idx 1, .leaf (.str "beta"))]),
    ([.str "harris_wilson_model", .str "parameters", .str "sigma", .str "sweep", .str "default", .str "allow-nan"], .leaf (.bool false)),
    ([.str "harris_wilson_model", .str "parameters", .str "sigma", .str "sweep", .str "range", .str "allow-nan"], .leaf (.bool false)),
    ([.str "neural_network", .str "exclude"], .leaf (.bool true)),
    ([.str "mcmc", .str "contingency_table", .str "exclude"], .leaf (.bool true)),
    ([.str "experiments", .idx 0, .str "grid_ranges", .str "exclude"], .leaf (.bool true)),
    ([.str "xgboost", .str "exclude"], .leaf (.bool true)),
    ([.str "random_forest", .str "exclude"], .leaf (.bool true)),
    ([.str "gradient_boosted_regression_trees", .str "exclude"], .leaf (.bool true)),
    ([.str "graph_attention_network", .str "exclude"], .leaf (.bool true))]),
  ("JointTableSIM_MCMC", [([.str "training", .str "to_learn", .str "sweep", .str "default", .str "default-value"], .node true [(.idx 0, .leaf (.str "alpha")), (.idx 1, .leaf (.str "beta"))]),
    ([.str "training", .str "to_learn", .str "sweep", .str "default", .str "is-any-of"], .node true [(.idx 0, .leaf (.str "alpha")), (.idx 1, .leaf (.str "beta"))]),
    ([.str "training", .str "to_learn", .str "sweep", .str "range", .str "default-value"], .node true [(.idx 0, .node true [(.idx 0, .leaf (.str "alpha")), (.idx 1, .leaf (.str "beta"))])]),
    ([.str "training", .str "to_learn", .str "sweep", .str "range", .str "is-any-of"], .node true [(.idx 0, .leaf (.str "alpha")), (.idx 1, .leaf (.str "beta"))]),
    ([.str "harris_wilson_model", .str "parameters", .str "sigma", .str "sweep", .str "default", .str "allow-nan"], .leaf (.bool false)),
    ([.str "harris_wilson_model", .str "parameters", .str "sigma", .str "sweep", .str "range", .str "allow-nan"], .leaf (.bool false)),
    ([.str "neural_network", .str "exclude"], .leaf (.bool true)),
    ([.str "experiments", .idx 0, .str "grid_ranges", .str "exclude"], .leaf (.bool true)),
    ([.str "xgboost", .str "exclude"], .leaf (.bool true)),
    ([.str "random_forest", .str "exclude"], .leaf (.bool true)),
    ([.str "gradient_boosted_regression_trees", .str "exclude"], .leaf (.bool true)),
    ([.str "graph_attention_network", .str "exclude"], .leaf (.bool true))]),
  ("SIM_NN", [([.str "neural_network", .str "loss", .str "loss_name", .str "sweep", .str "default", .str "is-any-of"], .node true [(.idx 0, .leaf (.str "dest_attraction_ts_loss")), (.idx 1, .leaf (.str "dest_attraction_ts_likelihood_loss"))]),
    ([.str "neural_network", .str "loss", .str "loss_name", .str "sweep", .str "default", .str "default-value"], .leaf (.str "dest_attraction_ts_loss")),
    ([.str "neural_network", .str "loss", .str "loss_name", .str "sweep", .str "range", .str "is-any-of"], .node true [(.idx 0, .leaf (.str "dest_attraction_ts_loss")), (.idx 1, .leaf (.str "dest_attraction_ts_likelihood_loss"))]),
    ([.str "neural_network", .str "loss", .str "loss_name", .str "sweep", .str "range", .str "default-value"], .leaf (.str "dest_attraction_ts_loss")),
    ([.str "contingency_table", .str "exclude"], .leaf (.bool true)),
    ([.str "experiments", .idx 0, .str "grid_ranges", .str "exclude"], .leaf (.bool true)),
    ([.str "mcmc", .str "exclude"], .leaf (.bool true)),
    ([.str "xgboost", .str "exclude"], .leaf (.bool true)),
    ([.str "random_forest", .str "exclude"], .leaf (.bool true)),
    ([.str "gradient_boosted_regression_trees", .str "exclude"], .leaf (.bool true)),
    ([.str "graph_attention_network", .str "exclude"], .leaf (.bool true))]),
  ("NonJointTableSIM_NN", [([.str "neural_network", .str "loss", .str "loss_name", .str "sweep", .str "default", .str "default-value"], .leaf (.str "dest_attraction_ts_loss")),
    ([.str "neural_network", .str "loss", .str "loss_name", .str "sweep", .str "default", .str "is-any-of"], .node true [(.idx 0, .leaf (.str "dest_attraction_ts_loss")), (.idx 1, .leaf (.str "dest_attraction_ts_likelihood_loss"))]),
    ([.str "neural_network", .str "loss", .str "loss_name", .str "sweep", .str "range", .str "default-value"], .leaf (.str "dest_attraction_ts_loss")),
    ([.str "neural_network", .str "loss", .str "loss_name", .str "sweep", .str "range", .str "is-any-of"], .node true [(.idx 0, .leaf (.str "dest_attraction_ts_loss")), (.idx 1, .leaf (.str "dest_attraction_ts_likelihood_loss"))]),
    ([.str "experiments", .idx 0, .str "grid_ranges", .str "exclude"], .leaf (.bool true)),
    ([.str "mcmc", .str "parameters", .str "exclude"], .leaf (.bool true)),
    ([.str "mcmc", .str "destination_attraction", .str "exclude"], .leaf (.bool true)),
    ([.str "xgboost", .str "exclude"], .leaf (.bool true)),
    ([.str "random_forest", .str "exclude"], .leaf (.bool true)),
    ([.str "gradient_boosted_regression_trees", .str "exclude"], .leaf (.bool true)),
    ([.str "graph_attention_network", .str "exclude"], .leaf (.bool true))]),
  ("JointTableSIM_NN", [([.str "mcmc", .str "parameters", .str "exclude"], .leaf (.bool true)),
    ([.str "mcmc", .str "destination_attraction", .str "exclude"], .leaf (.bool true)),
    ([.str "xgboost", .str "exclude"], .leaf (.bool true)),
    ([.str "random_forest", .str "exclude"], .leaf (.bool true)),
    ([.str "gradient_boosted_regression_trees", .str "exclude"], .leaf (.bool true)),
    ([.str "graph_attention_network", .str "exclude"], .leaf (.bool true))]),
  ("XGBoost_Comparison", [([.str "spatial_interaction_model", .str "exclude"], .leaf (.bool true)),
    ([.str "training", .str "to_learn", .str "optional"], .leaf (.bool true)),
    ([.str "harris_wilson_model", .str "exclude"], .leaf (.bool true)),
    ([.str "mcmc", .str "exclude"], .leaf (.bool true)),
    ([.str "training", .str "to_learn", .str "exclude"], .leaf (.bool true)),
    ([.str "neural_network", .str "exclude"], .leaf (.bool true)),
    ([.str "random_forest", .str "exclude"], .leaf (.bool true)),
    ([.str "gradient_boosted_regression_trees", .str "exclude"], .leaf (.bool true)),
    ([.str "graph_attention_network", .str "exclude"], .leaf (.bool true))]),
  ("RandomForest_Comparison", [([.str "spatial_interaction_model", .str "exclude"], .leaf (.bool true)),
    ([.str "training", .str "to_learn", .str "optional"], .leaf (.bool true)),
    ([.str "harris_wilson_model", .str "exclude"], .leaf (.bool true)),
    ([.str "mcmc", .str "exclude"], .leaf (.bool true)),
    ([.str "training", .str "to_learn", .str "exclude"], .leaf (.bool true)),
    ([.str "neural_network", .str "exclude"], .leaf (.bool true)),
    ([.str "xgboost", .str "exclude"], .leaf (.bool true)),
    ([.str "gradient_boosted_regression_trees", .str "exclude"], .leaf (.bool true)),
    ([.str "graph_attention_network", .str "exclude"], .leaf (.bool true))]),
  ("GBRT_Comparison", [([.str "spatial_interaction_model", .str "exclude"], .leaf (.bool true)),
    ([.str "training", .str "to_learn", .str "optional"], .leaf (.bool true)),
    ([.str "harris_wilson_model", .str "exclude"], .leaf (.bool true)),
    ([.str "mcmc", .str "exclude"], .leaf (.bool true)),
    ([.str "training", .str "to_learn", .str "exclude"], .leaf (.bool true)),
    ([.str "neural_network", .str "exclude"], .leaf (.bool true)),
    ([.str "xgboost", .str "exclude"], .leaf (.bool true)),
    ([.str "random_forest", .str "exclude"], .leaf (.bool true)),
    ([.str "graph_attention_network", .str "exclude"], .leaf (.bool true))]),
  ("GraphAttentionNetwork_Comparison", [([.str "spatial_interaction_model", .str "exclude"], .leaf (.bool true)),
    ([.str "training", .str "to_learn", .str "optional"], .leaf (.bool true)),
    ([.str "harris_wilson_model", .str "exclude"], .leaf (.bool true)),
    ([.str "mcmc", .str "exclude"], .leaf (.bool true)),
    ([.str "training", .str "to_learn", .str "exclude"], .leaf (.bool true)),
    ([.str "neural_network", .str "exclude"], .leaf (.bool true)),
    ([.str "xgboost", .str "exclude"], .leaf (.bool true)),
    ([.str "random_forest", .str "exclude"], .leaf (.bool true)),
    ([.str "gradient_boosted_regression_trees", .str "exclude"], .leaf (.bool true))]),
  ("Table_MCMC", [([.str "spatial_interaction_model", .str "exclude"], .leaf (.bool true)),
    ([.str "training", .str "to_learn", .str "optional"], .leaf (.bool true)),
    ([.str "harris_wilson_model", .str "exclude"], .leaf (.bool true)),
    ([.str "training", .str "to_learn", .str "exclude"], .leaf (.bool true)),
    ([.str "neural_network", .str "exclude"], .leaf (.bool true)),
    ([.str "xgboost", .str "exclude"], .leaf (.bool true)),
    ([.str "random_forest", .str "exclude"], .leaf (.bool true)),
    ([.str "gradient_boosted_regression_trees", .str "exclude"], .leaf (.bool true)),
    ([.str "graph_attention_network", .str "exclude"], .leaf (.bool true))])]

end Shipped

end GeNSIT
