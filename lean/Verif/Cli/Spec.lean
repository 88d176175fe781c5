import Verif.Cli.Model
import Verif.Config.Spec

/-!
# Specification vocabulary for the command line
-/

namespace GeNSIT.Spec

open GeNSIT

/-- What is stored at a place, one level deep: the value of a leaf, or the kind and the keys of a container. -/
inductive Outline where
  | value (a : Atom)
  | container (isList : Bool) (keys : List Key)
  deriving DecidableEq

/-- The outline of a setting. -/
def outline : Cfg → Outline
  | .leaf a => .value a
  | .node l es => .container l (es.map Prod.fst)

/-- A list is stored at the path. -/
def ListAt (c : Cfg) (p : List Key) : Prop := ∃ es, readAt c p = some (.node true es)

/-- On the way along `p` there is no list that lies directly in another list, and the settings are not a list. -/
def NoNestedLists (c : Cfg) (p : List Key) : Prop :=
  ¬ ListAt c [] ∧ ∀ r k, r ++ [k] <+: p → ¬ (ListAt c r ∧ ListAt c (r ++ [k]))

/-- The key occurs nowhere in the value. -/
def KeyFree (k : Key) (v : Cfg) : Prop := ∀ p, (readAt v p).isSome → k ∉ p

/-- A value the command line can carry: something, not an empty string or an empty list. -/
def Substantial (v : Cfg) : Prop :=
  v ≠ .leaf .null ∧ v ≠ .leaf (.str "") ∧ ∀ l, v ≠ .node l []

/-- The options of a command (`main.py:49-177, 248-253, 319-320, 431-436`). -/
def optionNames (cmd : Command) : List String :=
  (match cmd with
    | .create => ["dims", "synthesis_method", "synthesis_n_samples"]
    | .run => ["load_experiment"]
    | .optimise => ["n_trials", "timeout", "metric_evaluation"]) ++
  (match cmd with
    | .create => []
    | _ => ["sweep_mode", "experiment_type", "title", "validate_samples", "overwrite", "dataset", "in_directory",
        "to_learn", "mcmc_workers", "name", "grand_total", "origin_demand", "region_features", "cost_matrix",
        "destination_attraction_ts", "margins", "train_cells", "sparse_margins", "store_progress", "axes", "cells",
        "seed", "proposal", "loss_name", "loss_function", "loss_kwarg_keys", "theta_steps",
        "destination_attraction_steps", "table_steps", "table0", "margin0", "alpha0", "beta0", "beta_max",
        "covariance", "step_size", "leapfrog_steps", "leapfrog_step_size", "ais_leapfrog_steps",
        "ais_leapfrog_step_size", "ais_samples", "n_bridging_distributions"]) ++
  ["config_path", "data_generation_seed", "alpha", "beta", "bmax", "delta", "kappa", "epsilon", "sigma", "dt",
    "noise_percentage", "norm", "n_workers", "n_threads", "logging_mode", "n", "table", "device", "out_directory",
    "out_group"]

/-- The settings an option stands for: `--n` stands for `N`, every other option for the settings of its own name. -/
def settingOf (option : String) : String := if option = "n" then "N" else option

/-- The settings every call of a command overwrites, whatever is given. -/
def alwaysOverwritten : Command → List String
  | .create => ["norm", "n_workers", "n_threads", "logging_mode", "device", "out_group", "synthesis_method", "sample"]
  | .run => ["norm", "n_workers", "n_threads", "logging_mode", "device", "sparse_margins", "store_progress", "sample"]
  | .optimise => ["norm", "n_workers", "n_threads", "logging_mode", "device", "sparse_margins", "store_progress", "sample",
      "export_samples", "export_metadata"]

/-- The settings a call of a command may overwrite. -/
def Overwritten (cmd : Command) (given : List (String × Cfg)) (k : Key) : Prop :=
  (∃ s ∈ alwaysOverwritten cmd, k = .str s) ∨ (∃ e ∈ given, k = .str (settingOf e.1))

/-- The value such a setting gets when its option is not given. -/
def silentValue (setting : String) : Cfg :=
  match setting with
  | "norm" => .leaf (.str "relative_l_1")
  | "n_workers" => .leaf (.num 1)
  | "logging_mode" => .leaf (.str "info")
  | "device" => .leaf (.str "cpu")
  | "out_group" => .leaf (.str "")
  | "synthesis_method" => .leaf (.str "sde_solver")
  | "sparse_margins" => .leaf (.bool false)
  | "store_progress" => .leaf (.num 1)
  | "export_samples" => .leaf (.bool false)
  | "export_metadata" => .leaf (.bool false)
  | "sample" => .node true []
  | _ => .leaf .null

end GeNSIT.Spec
