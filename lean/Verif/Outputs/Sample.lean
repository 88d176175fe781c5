import Verif.Sim.Props

/-!
# Reading a sample back (`gensit/outputs.py`, `Outputs.get_sample`) (C128)
-/

set_option linter.unusedVariables false
set_option linter.unusedSimpArgs false

namespace GeNSIT

/-- The names of `TRAIN_SCHEMA` (`gensit/static/global_variables.py:203-303`). -/
def trainNames : List String := ["origin_demand", "destination_demand", "origin_attraction_ts", "destination_attraction_ts", "cost_matrix",
  "total_cost_by_origin", "ground_truth_table", "grand_total", "region_features", "origin_region_features", "destination_region_features",
  "adjacency_matrix", "margins", "cells_subset", "dims", "to_learn", "true_parameters", "dataset"]

/-- The names of `VALIDATION_SCHEMA` (`gensit/static/global_variables.py:129-200`). -/
def validationNames : List String := ["test_cells", "test_cells_mask", "test_validation_cells", "test_validation_cells_mask",
  "validation_cells", "validation_cells_mask", "zero_train_cells", "zero_train_cells_mask", "train_cells", "train_cells_mask"]

/-- An array of numbers by its first two indices: for inputs the position, for outputs the draw and the position (parameters and totals are
read at position zero; attractions at the last time). -/
abbrev Arr2 := ℕ → ℕ → ℝ

/-- How reading may fail: the two exceptions of its own, any other exception, the end of the program. -/
inductive SampleErr where
  | missingData
  | irregular
  | other
  | exit
deriving DecidableEq

/-- What the reader has: whether the configuration has a spatial interaction model, whether it is the production constrained one, `bmax`, the
sizes, the inputs that are present, the validation files that are named in the settings, and the collections of outputs. -/
structure SampleCtx where
  sim : Bool
  production : Bool
  bmax : ℝ
  I : ℕ
  J : ℕ
  inputs : String → Option Arr2
  files : String → Option Arr2
  outputs : String → Option (List Arr2)

/-- The branches for everything but the intensity (`gensit/outputs.py:1514-1580`). Casts and the functions applied to validation files are
not modelled. -/
noncomputable def SampleCtx.plain (c : SampleCtx) (name : String) : Except SampleErr Arr2 :=
  if name ∈ trainNames then
    match c.inputs name with
    | some v => .ok v
    | none => .error .other
  else if name ∈ validationNames then
    match c.inputs name with
    | some v => .ok v
    | none =>
      match c.files name with
      | some v => .ok v
      | none => .error .missingData
  else
    match c.outputs name with
    | none => .error .missingData
    | some members =>
      if members.length > 1 then .error .irregular
      else
        match members with
        | [] => .error .other
        | v :: _ => if name = "beta" ∧ c.sim = true then .ok fun t j => v t j * c.bmax else .ok v

/-- The arguments of the intensity model (`gensit/outputs.py:1480-1499`): one sweep; draw `t` is the leading index. -/
noncomputable def simArgs (I J : ℕ) (total : ℝ) (demand : ℕ → ℝ) (cost : Arr2) (alpha beta : ℕ → ℝ) (x : Arr2) : SimArgs where
  I := I
  J := J
  sweep := 1
  logAttraction := fun k => x (k / J) (k % J)
  alpha := alpha
  beta := beta
  demand := demand
  cost := cost
  grandTotal := total

/-- The intensity of the two models. -/
noncomputable def simIntensity (production : Bool) (I J : ℕ) (total : ℝ) (demand : ℕ → ℝ) (cost : Arr2) (alpha beta : ℕ → ℝ) (x : Arr2)
    (t i j : ℕ) : ℝ :=
  if production then (simArgs I J total demand cost alpha beta x).flowP t 0 i j
  else (simArgs I J total demand cost alpha beta x).flowT t 0 i j

/-- Everything that happens while the outputs are read ends the program if it fails (`gensit/outputs.py:1494-1503`). -/
def orExit {α : Type} : Except SampleErr α → Except SampleErr α
  | .ok v => .ok v
  | .error _ => .error .exit

/-- The intensity (`gensit/outputs.py:1460-1510`): the inputs are read, then the outputs; `check_data_availability` only logs. -/
noncomputable def SampleCtx.intensity (c : SampleCtx) : Except SampleErr (ℕ → ℕ → ℕ → ℝ) := do
  let cost ← c.plain "cost_matrix"
  let demand ← if c.production then c.plain "origin_demand" else .ok fun _ _ => 0
  let total ← c.plain "grand_total"
  let alpha ← orExit (c.plain "alpha")
  let beta ← orExit (c.plain "beta")
  let x ← orExit (c.plain "log_destination_attraction")
  .ok (simIntensity c.production c.I c.J (total 0 0) (fun i => demand i 0) cost (fun t => alpha t 0) (fun t => beta t 0) x)

/-- A sample: an array, or a matrix for every draw. -/
inductive SampleOut where
  | array (v : Arr2)
  | matrices (m : ℕ → ℕ → ℕ → ℝ)

/-- `get_sample` (`gensit/outputs.py:1450-1584`). -/
noncomputable def SampleCtx.getSample (c : SampleCtx) (name : String) : Except SampleErr SampleOut :=
  if name = "intensity" ∧ c.sim = true then c.intensity.map .matrices else (c.plain name).map .array

/-! ## What the experiments compute -/

/-- The intensity the tables are sampled with in `JointTableSIM_MCMC` (`gensit/experiments.py:1745-1748`): the sampled parameters, not
scaled, at the sampled attractions. -/
noncomputable def mcmcTableIntensity (production : Bool) (I J : ℕ) (total : ℝ) (demand : ℕ → ℝ) (cost : Arr2) (alpha beta : ℕ → ℝ)
    (x : Arr2) (t i j : ℕ) : ℝ := simIntensity production I J total demand cost alpha beta x t i j

/-- The intensity in the parameter and attraction updates of the Markov chain experiments
(`gensit/learning_models/HarrisWilsonModel_MCMC.py:655`, `742`, `848`, `984`): `beta` is multiplied by `bmax`. -/
noncomputable def mcmcStepIntensity (production : Bool) (bmax : ℝ) (I J : ℕ) (total : ℝ) (demand : ℕ → ℝ) (cost : Arr2)
    (alpha beta : ℕ → ℝ) (x : Arr2) (t i j : ℕ) : ℝ := simIntensity production I J total demand cost alpha (fun t => beta t * bmax) x t i j

/-- The intensity in the neural network experiments (`gensit/experiments.py:2125-2132`, `2373-2380`, `2640-2647`): the parameters that the
network returns, not scaled, at the observed attractions. -/
noncomputable def nnIntensity (production : Bool) (I J : ℕ) (total : ℝ) (demand : ℕ → ℝ) (cost : Arr2) (alpha beta : ℕ → ℝ)
    (data : ℕ → ℝ) (t i j : ℕ) : ℝ := simIntensity production I J total demand cost alpha beta (fun _ j => Real.log (data j)) t i j

/-- The attractions that the neural network experiments store (`gensit/experiments.py:2135-2141`, `2168`): those after one step of the
Harris-Wilson model from the observed ones, driven by that intensity. -/
noncomputable def nnStored (p : PotParams) (dt : ℝ) (production : Bool) (I J : ℕ) (demand : ℕ → ℝ) (cost : Arr2) (alpha beta : ℕ → ℝ)
    (data : ℕ → ℝ) (noise : Arr2) : Arr2 := fun t j =>
  Real.log (runSingle p dt I (nnIntensity production I J 1 demand cost alpha beta data t) (noise t) data j)

end GeNSIT
