import Verif.Config.Model

/-!
# The command line

Model of the part of `/repo/gensit/main.py` that turns the options of `gensit create`, `gensit run` and
`gensit optimise` into changes of the configuration, and of `ExperimentHandler` (`/repo/gensit/experiments.py:54-114`),
which picks the experiments to run.

Not modelled: `click` itself (types, choices, the error on a missing argument): an option value is any setting, `null`
when the option is not given; the reshaping of `--covariance` to a 2x2 list (`main.py:405-407, 525-527`), so the value
of that option is the one after reshaping; reading the configuration file; logging; `torch.set_num_threads`.
-/

namespace GeNSIT

/-- The three commands that work on a configuration. -/
inductive Command where
  | create
  | run
  | optimise
  deriving DecidableEq

/-- The options shared by all commands with the value `click` passes when they are not given (`main.py:49-65`). -/
def commonOptions : List (String × Cfg) :=
  [("norm", .leaf (.str "relative_l_1")), ("n_workers", .leaf (.num 1)), ("n_threads", .leaf .null),
   ("logging_mode", .leaf (.str "info")), ("n", .leaf .null), ("table", .leaf .null), ("device", .leaf (.str "cpu")),
   ("out_directory", .leaf .null), ("out_group", .leaf (.str ""))]

/-- `_create_and_run_options` (`main.py:67-89`). -/
def createAndRunOptions : List (String × Cfg) :=
  [("config_path", .leaf .null), ("data_generation_seed", .leaf .null), ("alpha", .leaf .null), ("beta", .leaf .null),
   ("bmax", .leaf .null), ("delta", .leaf .null), ("kappa", .leaf .null), ("epsilon", .leaf .null),
   ("sigma", .leaf .null), ("dt", .leaf .null), ("noise_percentage", .leaf .null)]

/-- `_run_and_optimise_options` (`main.py:91-177`).  Options that may be repeated give the empty list. -/
def runAndOptimiseOptions : List (String × Cfg) :=
  [("sweep_mode", .leaf .null), ("experiment_type", .node true []), ("title", .leaf .null),
   ("validate_samples", .leaf .null), ("overwrite", .leaf .null), ("dataset", .leaf .null),
   ("in_directory", .leaf .null), ("to_learn", .node true []), ("mcmc_workers", .leaf .null), ("name", .leaf .null),
   ("grand_total", .leaf .null), ("origin_demand", .leaf .null), ("region_features", .leaf .null),
   ("cost_matrix", .leaf .null), ("destination_attraction_ts", .leaf .null), ("margins", .leaf .null),
   ("train_cells", .leaf .null), ("sparse_margins", .leaf (.bool false)), ("store_progress", .leaf (.num 1)),
   ("axes", .leaf .null), ("cells", .leaf .null), ("seed", .leaf .null), ("proposal", .leaf .null),
   ("loss_name", .node true []), ("loss_function", .node true []), ("loss_kwarg_keys", .node true []),
   ("theta_steps", .leaf .null), ("destination_attraction_steps", .leaf .null), ("table_steps", .leaf .null),
   ("table0", .leaf .null), ("margin0", .leaf .null), ("alpha0", .leaf .null), ("beta0", .leaf .null),
   ("beta_max", .leaf .null), ("covariance", .leaf .null), ("step_size", .leaf .null), ("leapfrog_steps", .leaf .null),
   ("leapfrog_step_size", .leaf .null), ("ais_leapfrog_steps", .leaf .null), ("ais_leapfrog_step_size", .leaf .null),
   ("ais_samples", .leaf .null), ("n_bridging_distributions", .leaf .null)]

/-- The options a command adds to the shared ones (`main.py:248-253, 319-320, 431-436`).  `--dims` is already unpacked:
a dictionary when given, `null` otherwise (`main.py:284-291`). -/
def ownOptions : Command → List (String × Cfg)
  | .create => [("dims", .leaf .null), ("synthesis_method", .leaf (.str "sde_solver")), ("synthesis_n_samples", .leaf .null)]
  | .run => ("load_experiment", .leaf .null) :: runAndOptimiseOptions
  | .optimise =>
    [("n_trials", .leaf .null), ("timeout", .leaf .null), ("metric_evaluation", .leaf .null)] ++ runAndOptimiseOptions

/-- All the parameters of a command with the values they have when nothing is given. -/
def commandDefaults (cmd : Command) : List (String × Cfg) := ownOptions cmd ++ createAndRunOptions ++ commonOptions

/-- The arguments `click` calls the command with: what is given on the command line, and the defaults. -/
def clickArgs (cmd : Command) (given : List (String × Cfg)) : List (String × Cfg) :=
  (commandDefaults cmd).map fun e => (e.1, (given.lookup e.1).getD e.2)

/-- `v is None`. -/
def Cfg.isNull : Cfg → Bool
  | .leaf .null => true
  | _ => false

/-- `hasattr(v,'__len__') and len(v) == 0`. -/
def Cfg.isEmptySized : Cfg → Bool
  | .leaf (.str s) => s == ""
  | .node _ es => es.isEmpty
  | _ => false

/-- `key.upper() if len(key) == 1 else key` (`main.py:297, 395, 513`). -/
def upperSingle (s : String) : String := if s.length = 1 then s.toUpper else s

/-- The dictionary of settings a command gathers: nulls are dropped, `run` and `optimise` also drop empty strings and
lists, `create` does not (`main.py:293-297, 389-395, 507-513`). -/
def gatherSettings (cmd : Command) (args : List (String × Cfg)) : List (Key × Cfg) :=
  let nonNull := args.filter fun e => !e.2.isNull
  let kept := match cmd with
    | .create => nonNull
    | _ => nonNull.filter fun e => !e.2.isEmptySized
  toDict (kept.map fun e => (Key.str (upperSingle e.1), e.2))

/-- `update_settings` (`main.py:24-37`), for commands without `--evaluation_kwargs`: `sample` becomes the empty list. -/
def updateSettings (s : List (Key × Cfg)) : List (Key × Cfg) :=
  let s := setEntry s (.str "n_threads") ((s.lookup (.str "n_threads")).getD (.leaf .null))
  let s := setEntry s (.str "n_workers") ((s.lookup (.str "n_workers")).getD (.leaf (.num 1)))
  setEntry s (.str "sample") (.node true [])

/-- The settings with which the configuration is overwritten; `optimise` also switches the exports off
(`main.py:300, 398, 516, 536-537`). -/
def commandSettings (cmd : Command) (given : List (String × Cfg)) : List (Key × Cfg) :=
  let s := updateSettings (gatherSettings cmd (clickArgs cmd given))
  match cmd with
  | .optimise =>
    setEntry (setEntry s (.str "export_samples") (.leaf (.bool false))) (.str "export_metadata") (.leaf (.bool false))
  | _ => s

/-- `deep_updates` (`misc_utils.py:582-585`) with `overwrite = True`. -/
def deepUpdates (c : Cfg) (us : List (Key × Cfg)) : Cfg := us.foldl (fun c e => deepUpdate e.1 e.2 c) c

/-- `update_device` (`misc_utils.py:743-752`); `auto` is the device found by probing the hardware, `none` the error of
`len` of a number. -/
def updateDevice (auto : Cfg) : Cfg → Option Cfg
  | .leaf .null => some auto
  | .leaf (.str s) => some (if s = "" then auto else .leaf (.str s))
  | .node l es => some (if es.isEmpty then auto else .node l es)
  | .leaf _ => none

/-- The configuration with which `setup_experiments` goes on (`main.py:201-222`); `none` = exception. -/
def setupConfig (auto : Cfg) (cmd : Command) (given : List (String × Cfg)) (c : Cfg) : Option Cfg := do
  let us := commandSettings cmd given
  let c := deepUpdates c us
  let inputs ← c.getItem (.str "inputs")
  let dev ← updateDevice auto ((us.lookup (.str "device")).getD (.leaf (.str "cpu")))
  let inputs ← inputs.setItem (.str "device") dev
  c.setItem (.str "inputs") inputs

/-! ### `ExperimentHandler` -/

/-- `del xs[i]`. -/
def deleteAt {α : Type} : List α → Nat → List α
  | [], _ => []
  | _ :: xs, 0 => xs
  | x :: xs, i + 1 => x :: deleteAt xs i

/-- The deletion loop (`experiments.py:71-73`), over the indices from the last to the first; `typeOf` reads
`experiment['type']` and fails if the key is missing. -/
def deleteUnwanted {α : Type} (typeOf : α → Option String) (wanted : List String) : Nat → List α → Option (List α)
  | 0, xs => some xs
  | i + 1, xs => do
    let x ← xs[i]?
    let t ← typeOf x
    deleteUnwanted typeOf wanted i (if wanted.contains t then xs else deleteAt xs i)

/-- `{exp['type']:i for i,exp in enumerate(experiments)}` (`experiments.py:74-76`): a type keeps its first place in the
dictionary and the last index. -/
def indexByType {α : Type} (typeOf : α → Option String) : Nat → List α → List (String × Nat) → Option (List (String × Nat))
  | _, [], acc => some acc
  | i, x :: xs, acc => do
    let t ← typeOf x
    indexByType typeOf (i + 1) xs (put t i acc)
where
  /-- `d[t] = i`. -/
  put (t : String) (i : Nat) : List (String × Nat) → List (String × Nat)
    | [] => [(t, i)]
    | (t', i') :: rest => if t = t' then (t', i) :: rest else (t', i') :: put t i rest

/-- The experiments set up, in the order in which they are run (`experiments.py:66-114`). -/
def experimentsToRun {α : Type} (typeOf : α → Option String) (wanted : List String) (xs : List α) :
    Option (List (String × α)) := do
  let kept ← deleteUnwanted typeOf wanted xs.length xs
  let idx ← indexByType typeOf 0 kept []
  idx.mapM fun e => (kept[e.2]?).map fun x => (e.1, x)

end GeNSIT
