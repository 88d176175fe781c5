import Verif.Config.Spec
import Verif.Inputs.Model

/-!
# Parameters of the physics model

Model of `HarrisWilson.__init__` and `HarrisWilson.update_hyperparameters`
(`/repo/gensit/physics_models/HarrisWilsonModel.py:52-147`) and of the parameters handed to it by
`Inputs` (`/repo/gensit/inputs.py:178-194`).  Numbers are opaque codes (`Atom`); conversion to single precision is not
modelled.
-/

namespace GeNSIT

/-- The keys of `PARAMETER_DEFAULTS` in order (`global_variables.py:23-33`). -/
def hwNames : List String := ["alpha", "beta", "delta", "kappa", "epsilon", "bmax", "noise_percentage", "sigma", "dt"]

/-- `learnable_param_names` (`HarrisWilsonModel.py:54`). -/
def hwLearnable : List String := ["alpha", "beta", "kappa", "sigma", "delta", "epsilon", "bmax"]

/-- `settings.get(model,{}).get('parameters',{})` (`inputs.py:185-186`).  Simplification: entries that are not dictionaries
count as empty. -/
def parametersOf (s : Cfg) (model : String) : List (Key × Cfg) :=
  match s with
  | .node false es =>
    match es.lookup (.str model) with
    | some (.node false fs) =>
      match fs.lookup (.str "parameters") with
      | some (.node false ps) => ps
      | _ => []
    | _ => []
  | _ => []

/-- `parameter_settings.get(k,v)` (`inputs.py:184-189`): the parameters of the Harris-Wilson model take precedence. -/
def parameterSetting (s : Cfg) (dflt : String → Atom) (p : String) : Cfg :=
  match (parametersOf s "harris_wilson_model").lookup (.str p) with
  | some v => v
  | none =>
    match (parametersOf s "spatial_interaction_model").lookup (.str p) with
    | some v => v
    | none => .leaf (dflt p)

/-- The entries of `true_parameters` read from the settings (`inputs.py:188-192`) and made tensors (`inputs.py:385-387`);
`none` = exception.  Simplification: only plain values are accepted. -/
def readParameters (s : Cfg) (dflt : String → Atom) (learned : List String) : List String → Option (List (String × Atom))
  | [] => some []
  | p :: rest =>
    if p ∈ learned then readParameters s dflt learned rest
    else
      match parameterSetting s dflt p with
      | .leaf a => (readParameters s dflt learned rest).map ((p, a) :: ·)
      | .node _ _ => none

/-- `true_parameters` (`inputs.py:178-223`); `delta` and `kappa` are the values of `update_delta_and_kappa` (C114). -/
def trueParameters (s : Cfg) (dflt : String → Atom) (learned : List String) (delta kappa : Atom) :
    Option (List (String × Atom)) :=
  (readParameters s dflt learned hwNames).map fun (l : List (String × Atom)) => inSet "kappa" kappa (inSet "delta" delta l)

/-- The values suggested by an optuna trial (`HarrisWilsonModel.py:98-107`). -/
structure Suggested where
  epsilon : Atom
  noisePercentage : Atom
  dt : Atom

/-- `OPTUNA_HYPERPARAMS` (`HarrisWilsonModel.py:99-107`). -/
def Suggested.get (t : Suggested) (p : String) : Option Atom :=
  if p = "epsilon" then some t.epsilon
  else if p = "noise_percentage" then some t.noisePercentage
  else if p = "dt" then some t.dt
  else none

/-- `self.hyperparams` and `self.config.settings`. -/
structure HyperState where
  params : List (String × Atom)
  settings : Cfg

/-- One iteration of the loop of `update_hyperparameters` (`HarrisWilsonModel.py:109-147`); `none` = exception.  A
parameter that is neither suggested nor given raises: when its name occurs in the settings because `HarrisWilson` has no
method `path_get`, otherwise because the default is a plain number without method `to`. -/
def hyperStep (learned : List String) (trial : Option Suggested) (given : List (String × Atom)) (st : HyperState)
    (p : String) : Option HyperState :=
  if p ∈ learned then some st
  else
    match trial.bind fun (t : Suggested) => t.get p with
    | some v => some { st with params := inSet p v st.params }
    | none =>
      match given.lookup p with
      | none => none
      | some v =>
        match (pathFind (.str p) st.settings [] []).2 with
        | q :: _ =>
          match pathSet false st.settings (.leaf v) q with
          | none => none
          | some r => some ⟨inSet p v st.params, r.1⟩
        | [] => some { st with params := inSet p v st.params }

/-- The loop (`HarrisWilsonModel.py:109-147`). -/
def hyperLoop (learned : List String) (trial : Option Suggested) (given : List (String × Atom)) :
    HyperState → List String → Option HyperState
  | st, [] => some st
  | st, p :: rest =>
    match hyperStep learned trial given st p with
    | none => none
    | some st' => hyperLoop learned trial given st' rest

/-- The construction of the physics model as far as its parameters are concerned (`HarrisWilsonModel.py:52-77`): `learned`
is `training.to_learn`. -/
def buildHyper (learned : List String) (trial : Option Suggested) (given : List (String × Atom)) (s : Cfg) :
    Option HyperState :=
  if learned.all (fun p => hwLearnable.contains p) then hyperLoop learned trial given ⟨[], s⟩ hwNames else none

/-- The step size of the training loops (`self.config['harris_wilson_model']['dt']`, `experiments.py:2139`, `2387`,
`2654`), read from the same settings after the construction. -/
def trainingStep (s : Cfg) : Option Cfg := Spec.readAt s [.str "harris_wilson_model", .str "dt"]

end GeNSIT
