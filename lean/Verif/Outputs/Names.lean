import Verif.Outputs.MoreProps

/-!
# Which outputs an experiment stores and which are loaded (C129)
(`gensit/static/global_variables.py`, `gensit/experiments.py`: `initialise_data_structures`, `gensit/outputs.py:185-219`)
-/

set_option linter.unusedVariables false
set_option linter.unusedSimpArgs false

namespace GeNSIT

/-- `LOSS_DATA_REQUIREMENTS` (`global_variables.py:83-110`). -/
def lossKeys : List String := ["dest_attraction_ts_loss", "table_loss", "total_table_distance_loss", "total_intensity_distance_loss",
  "total_loss", "loss", "dest_attraction_ts_likelihood_loss", "table_likelihood_loss", "total_table_distance_likelihood_loss",
  "total_intensity_distance_likelihood_loss"]

/-- The keys of `OUTPUT_SCHEMA` (`global_variables.py:314-463`). -/
def outputKeys : List String := ["loss", "total_loss", "log_target", "theta_acc", "log_destination_attraction_acc", "table_acc", "sign", "r2",
  "log_posterior_approximation", "compute_time", "table_compute_time", "intensity_compute_time", "intensity", "log_destination_attraction",
  "log_origin_attraction", "alpha", "beta", "delta", "kappa", "sigma", "noise_percentage", "table"] ++ lossKeys

/-- The keys of `PARAMETER_DEFAULTS` (`global_variables.py:23-33`). -/
def paramKeys : List String := ["alpha", "beta", "delta", "kappa", "epsilon", "bmax", "noise_percentage", "sigma", "dt"]

/-- `EXPERIMENT_OUTPUT_NAMES` (`global_variables.py:475-493`). In `SIM_MCMC` a comma is missing after `compute_time`. -/
def declaredOutputs : String → Option (List String)
  | "RSquared_Analysis" => some ["r2"]
  | "LogTarget_Analysis" => some ["log_posterior_approximation"]
  | "SIM_MCMC" => some ["log_destination_attraction", "theta", "sign", "log_target", "compute_time" ++ "theta_acc", "log_destination_attraction_acc"]
  | "JointTableSIM_MCMC" => some ["log_destination_attraction", "theta", "sign", "table", "log_target", "compute_time", "table_compute_time",
      "intensity_compute_time", "theta_acc", "log_destination_attraction_acc", "table_acc"]
  | "Table_MCMC" => some ["table", "compute_time"]
  | "SIM_NN" => some ["log_destination_attraction", "theta", "loss", "compute_time"]
  | "NonJointTableSIM_NN" => some ["log_destination_attraction", "theta", "loss", "table", "compute_time", "table_compute_time",
      "intensity_compute_time"]
  | "JointTableSIM_NN" => some ["log_destination_attraction", "theta", "loss", "table", "compute_time", "table_compute_time",
      "intensity_compute_time"]
  | "XGBoost_Comparison" => some ["intensity", "compute_time"]
  | "RandomForest_Comparison" => some ["intensity", "compute_time"]
  | "GBRT_Comparison" => some ["intensity", "compute_time"]
  | "GraphAttentionNetwork_Comparison" => some ["intensity", "compute_time"]
  | _ => none

/-- `INTENSITY_OUTPUTS` (`global_variables.py:61-64`). -/
def intensityOutputs : String → Option (List String)
  | "TotallyConstrained" => some ["alpha", "beta", "log_destination_attraction"]
  | "ProductionConstrained" => some ["alpha", "beta", "log_destination_attraction"]
  | _ => none

/-! ## Storing -/

/-- The datasets created by `initialise_data_structures` (`experiments.py:530-648`): those of the losses (neural network experiments),
one per learned parameter, the grids and the plain samples that are declared. `none` is the `KeyError` for a parameter without an entry in
`DATA_SCHEMA` (of the learnable ones, `epsilon` and `bmax` have none). -/
def createdDatasets (declared : List String) (isNN : Bool) (lossFunctions toLearn : List String) : Option (List String) :=
  let losses := if "loss" ∈ declared ∧ isNN = true then lossFunctions ++ ["total_loss"] else []
  let plain := ["r2", "log_posterior_approximation", "log_destination_attraction", "table", "log_target", "intensity", "sign", "theta_acc",
    "log_destination_attraction_acc", "table_acc", "compute_time", "table_compute_time", "intensity_compute_time"].filter (· ∈ declared)
  if "theta" ∈ declared then
    if toLearn.all (· ∈ outputKeys) then some (losses ++ (toLearn ++ plain)) else none
  else some (losses ++ plain)

/-! ## Loading -/

/-- What the selection of names depends on: the data asked for (`none`: no restriction), the names of the intensity models (empty if there is
none) and of the losses of the neural network (`none`: no neural network in the configuration). -/
structure NameCtx where
  requested : Option (List String)
  models : List String
  lossNames : Option (List String)

/-- What one name contributes (`outputs.py:192-216`). -/
def nameContribution (c : NameCtx) (declared : List String) (sam : String) : Option (List String) :=
  if sam = "intensity" ∧ c.models ≠ [] then
    (c.models.mapM intensityOutputs).map fun l => l.flatten ++ if "sign" ∈ declared then ["sign"] else []
  else if sam ∈ lossKeys ∧ c.lossNames.isSome ∧ "loss" ∈ declared then
    some (if sam ∈ (c.lossNames.getD []) ++ ["total_loss"] then [sam] else [])
  else if sam ∈ declared then some [sam]
  else if "theta" ∈ declared ∧ sam ∈ paramKeys then some [sam]
  else some []

/-- `output_names` (`outputs.py:185-219`); `none` is a `KeyError` for an unknown experiment or model. The order is that of a Python set and
not modelled. -/
def loadedNames (c : NameCtx) (experiment : String) : Option (List String) :=
  match declaredOutputs experiment with
  | none => none
  | some declared =>
    let avail := match c.requested with
      | none => outputKeys
      | some names => names.filter (· ∈ outputKeys)
    (avail.mapM (nameContribution c declared)).map List.flatten

/-! ## C129 -/

theorem mapM_isSome {α β : Type} (f : α → Option β) (l : List α) (h : ∀ x ∈ l, (f x).isSome) : ∃ r, l.mapM f = some r := by
  induction l with
  | nil => exact ⟨[], rfl⟩
  | cons a l ih =>
    obtain ⟨r, hr⟩ := ih fun x hx => h x (by simp [hx])
    obtain ⟨b, hb⟩ := Option.isSome_iff_exists.1 (h a (by simp))
    exact ⟨b :: r, by simp [List.mapM_cons, hb, hr]⟩

theorem mem_mapM {α β : Type} {f : α → Option β} {l : List α} {r : List β} (h : l.mapM f = some r) (b : β) :
    b ∈ r ↔ ∃ a ∈ l, f a = some b := by
  induction l generalizing r with
  | nil => simp at h; subst h; simp
  | cons a l ih =>
    simp only [List.mapM_cons, Option.bind_eq_bind, Option.pure_def] at h
    cases ha : f a with
    | none => simp [ha] at h
    | some x =>
      cases hr : l.mapM f with
      | none => simp [ha, hr] at h
      | some r' =>
        simp [ha, hr] at h
        subst h
        rw [List.mem_cons, ih hr]
        simp [ha, eq_comm]

/-- A name is stored by experiments of a kind: declared, or a parameter where parameters are declared, or a loss of the network where losses
are declared. -/
def Spec.KeptUnder (declared : List String) (lossNames : Option (List String)) (name : String) : Prop :=
  if name ∈ lossKeys ∧ lossNames.isSome ∧ "loss" ∈ declared then name ∈ lossNames.getD [] ∨ name = "total_loss"
  else name ∈ declared ∨ "theta" ∈ declared ∧ name ∈ paramKeys

/-- C129: for known experiments and models the outputs loaded are: those asked for (all known ones if nothing is asked for) that the
experiment stores, and in place of the intensity of a spatial interaction model the parameters and attractions it is computed from, with the
sign if it is stored. -/
theorem C129_loaded (c : NameCtx) (experiment : String) (declared : List String) (h : declaredOutputs experiment = some declared)
    (hm : ∀ m ∈ c.models, m = "TotallyConstrained" ∨ m = "ProductionConstrained") :
    ∃ l, loadedNames c experiment = some l ∧ ∀ name, name ∈ l ↔
      (((∀ r, c.requested = some r → name ∈ r) ∧ name ∈ outputKeys ∧ ¬ (name = "intensity" ∧ c.models ≠ [])) ∧
        Spec.KeptUnder declared c.lossNames name) ∨
      ((∀ r, c.requested = some r → "intensity" ∈ r) ∧ c.models ≠ [] ∧
        (name ∈ ["alpha", "beta", "log_destination_attraction"] ∨ name = "sign" ∧ "sign" ∈ declared)) := by
  have hsome : ∀ sam, (nameContribution c declared sam).isSome := by
    intro sam
    unfold nameContribution
    split
    · obtain ⟨r, hr⟩ := mapM_isSome intensityOutputs c.models (fun m hm' => by rcases hm m hm' with rfl | rfl <;> rfl)
      rw [hr]; rfl
    · split
      · rfl
      · split
        · rfl
        · split <;> rfl
  obtain ⟨r, hr⟩ := mapM_isSome (nameContribution c declared) (match c.requested with
      | none => outputKeys
      | some names => names.filter (· ∈ outputKeys)) (fun x _ => hsome x)
  have hav : ∀ x, x ∈ (match c.requested with
      | none => outputKeys
      | some names => names.filter (· ∈ outputKeys)) ↔ (∀ r, c.requested = some r → x ∈ r) ∧ x ∈ outputKeys := by
    intro x
    cases hq : c.requested with
    | none => simp
    | some names => simp
  refine ⟨r.flatten, by unfold loadedNames; rw [h]; simp only []; rw [hr]; rfl, fun name => ?_⟩
  rw [List.mem_flatten]
  have key : (∃ l ∈ r, name ∈ l) ↔ ∃ sam, ((∀ q, c.requested = some q → sam ∈ q) ∧ sam ∈ outputKeys) ∧
      ∃ l, nameContribution c declared sam = some l ∧ name ∈ l := by
    constructor
    · rintro ⟨l, hl, hn⟩
      obtain ⟨a, ha, hf⟩ := (mem_mapM hr l).1 hl
      exact ⟨a, (hav a).1 ha, l, hf, hn⟩
    · rintro ⟨a, ha, l, hf, hn⟩
      exact ⟨l, (mem_mapM hr l).2 ⟨a, (hav a).2 ha, hf⟩, hn⟩
  rw [key]
  have hint : ∀ l, c.models ≠ [] → (nameContribution c declared "intensity" = some l) → (name ∈ l ↔
      name ∈ ["alpha", "beta", "log_destination_attraction"] ∨ name = "sign" ∧ "sign" ∈ declared) := by
    intro l hne hl
    unfold nameContribution at hl
    rw [if_pos ⟨rfl, hne⟩] at hl
    obtain ⟨q, hq⟩ := mapM_isSome intensityOutputs c.models (fun m hm' => by rcases hm m hm' with rfl | rfl <;> rfl)
    rw [hq] at hl
    simp only [Option.map_some, Option.some.injEq] at hl
    subst hl
    rw [List.mem_append, List.mem_flatten]
    have : (∃ z ∈ q, name ∈ z) ↔ name ∈ ["alpha", "beta", "log_destination_attraction"] := by
      constructor
      · rintro ⟨z, hz, hn⟩
        obtain ⟨m, hm', hf⟩ := (mem_mapM hq z).1 hz
        rcases hm m hm' with rfl | rfl <;> (simp only [intensityOutputs, Option.some.injEq] at hf; rw [hf]; exact hn)
      · intro hn
        obtain ⟨m, hm'⟩ := List.exists_mem_of_ne_nil _ hne
        refine ⟨_, (mem_mapM hq _).2 ⟨m, hm', ?_⟩, hn⟩
        rcases hm m hm' with rfl | rfl <;> rfl
    rw [this]
    split <;> simp_all
  have hoth : ∀ sam, ¬ (sam = "intensity" ∧ c.models ≠ []) → ∀ l, nameContribution c declared sam = some l →
      (name ∈ l ↔ name = sam ∧ Spec.KeptUnder declared c.lossNames sam) := by
    intro sam hs l hl
    unfold nameContribution at hl
    rw [if_neg hs] at hl
    unfold Spec.KeptUnder
    by_cases h1 : sam ∈ lossKeys ∧ c.lossNames.isSome ∧ "loss" ∈ declared
    · rw [if_pos h1] at hl ⊢
      simp only [Option.some.injEq] at hl
      subst hl
      simp only [List.mem_append, List.mem_singleton]
      split <;> simp_all
    · rw [if_neg h1] at hl ⊢
      split at hl
      · simp only [Option.some.injEq] at hl; subst hl; simp_all
      · split at hl
        · simp only [Option.some.injEq] at hl; subst hl; simp_all
        · simp only [Option.some.injEq] at hl; subst hl; simp_all
  constructor
  · rintro ⟨sam, ⟨hr1, hr2⟩, l, hl, hn⟩
    by_cases hs : sam = "intensity" ∧ c.models ≠ []
    · obtain ⟨rfl, hne⟩ := hs
      exact Or.inr ⟨hr1, hne, (hint l hne hl).1 hn⟩
    · obtain ⟨rfl, hst⟩ := (hoth sam hs l hl).1 hn
      exact Or.inl ⟨⟨hr1, hr2, hs⟩, hst⟩
  · rintro (⟨⟨hr1, hr2, hs⟩, hst⟩ | ⟨hr1, hne, hn⟩)
    · obtain ⟨l, hl⟩ := Option.isSome_iff_exists.1 (hsome name)
      exact ⟨name, ⟨hr1, hr2⟩, l, hl, (hoth name hs l hl).2 ⟨rfl, hst⟩⟩
    · obtain ⟨l, hl⟩ := Option.isSome_iff_exists.1 (hsome "intensity")
      exact ⟨"intensity", ⟨hr1, by decide⟩, l, hl, (hint l hne hl).2 hn⟩

/-- C129: nothing that an experiment stores is left out when no data are named (or it is named), if the losses are known ones and are those
of the configuration; an intensity that is stored itself requires that there is no spatial interaction model. -/
theorem C129_stored_loaded (c : NameCtx) (experiment : String) (declared lossFunctions toLearn created : List String) (isNN : Bool)
    (h : declaredOutputs experiment = some declared) (hm : ∀ m ∈ c.models, m = "TotallyConstrained" ∨ m = "ProductionConstrained")
    (hp : ∀ p ∈ toLearn, p ∈ paramKeys) (hl : ∀ f ∈ lossFunctions, f ∈ lossKeys) (hn : isNN = true → c.lossNames = some lossFunctions)
    (hi : "intensity" ∈ declared → c.models = [])
    (hc : createdDatasets declared isNN lossFunctions toLearn = some created) (name : String) (hname : name ∈ created)
    (hr : ∀ r, c.requested = some r → name ∈ r) : ∃ l, loadedNames c experiment = some l ∧ name ∈ l := by
  obtain ⟨l, hl', hmem⟩ := C129_loaded c experiment declared h hm
  refine ⟨l, hl', (hmem name).2 (Or.inl ?_)⟩
  have hlk : ∀ f ∈ lossKeys, f ∈ outputKeys := by decide
  have hpk : ∀ f ∈ outputKeys, f ∈ paramKeys → f ∉ lossKeys := by decide
  have hpi : "intensity" ∉ paramKeys := by decide
  have hli : "intensity" ∉ lossKeys := by decide
  have hplain : ∀ f ∈ ["r2", "log_posterior_approximation", "log_destination_attraction", "table", "log_target", "intensity", "sign", "theta_acc",
    "log_destination_attraction_acc", "table_acc", "compute_time", "table_compute_time", "intensity_compute_time"], f ∈ outputKeys ∧ f ∉ lossKeys := by decide
  have case1 : "loss" ∈ declared → isNN = true → name ∈ lossFunctions ++ ["total_loss"] →
      ((∀ r, c.requested = some r → name ∈ r) ∧ name ∈ outputKeys ∧ ¬ (name = "intensity" ∧ c.models ≠ [])) ∧
        Spec.KeptUnder declared c.lossNames name := by
    intro h1 h2 h3
    have hk : name ∈ lossKeys := by
      rcases List.mem_append.1 h3 with h3 | h3
      · exact hl _ h3
      · rw [List.mem_singleton.1 h3]; decide
    refine ⟨⟨hr, hlk _ hk, by rintro ⟨rfl, _⟩; exact hli hk⟩, ?_⟩
    unfold Spec.KeptUnder
    rw [if_pos ⟨hk, by simp [hn h2], h1⟩, hn h2]
    simpa using h3
  have case3 : name ∈ ["r2", "log_posterior_approximation", "log_destination_attraction", "table", "log_target", "intensity", "sign", "theta_acc",
    "log_destination_attraction_acc", "table_acc", "compute_time", "table_compute_time", "intensity_compute_time"].filter (· ∈ declared) →
      ((∀ r, c.requested = some r → name ∈ r) ∧ name ∈ outputKeys ∧ ¬ (name = "intensity" ∧ c.models ≠ [])) ∧
        Spec.KeptUnder declared c.lossNames name := by
    intro h3
    obtain ⟨h4, h5⟩ := List.mem_filter.1 h3
    obtain ⟨h6, h7⟩ := hplain _ h4
    have h5 : name ∈ declared := by simpa using h5
    refine ⟨⟨hr, h6, by rintro ⟨rfl, hne⟩; exact hne (hi h5)⟩, ?_⟩
    unfold Spec.KeptUnder
    rw [if_neg (fun hh => h7 hh.1)]
    exact Or.inl h5
  unfold createdDatasets at hc
  simp only at hc
  by_cases ht : "theta" ∈ declared
  · rw [if_pos ht] at hc
    split at hc
    · rename_i hall
      simp only [Option.some.injEq] at hc
      subst hc
      rcases List.mem_append.1 hname with h1 | h1
      · split at h1
        · rename_i hh; exact case1 hh.1 hh.2 h1
        · simp at h1
      · rcases List.mem_append.1 h1 with h1 | h1
        · have hk : name ∈ outputKeys := by simpa using List.all_eq_true.1 hall name h1
          refine ⟨⟨hr, hk, by rintro ⟨rfl, _⟩; exact hpi (hp _ h1)⟩, ?_⟩
          unfold Spec.KeptUnder
          rw [if_neg (fun hh => hpk _ hk (hp _ h1) hh.1)]
          exact Or.inr ⟨ht, hp _ h1⟩
        · exact case3 h1
    · simp at hc
  · rw [if_neg ht] at hc
    simp only [Option.some.injEq] at hc
    subst hc
    rcases List.mem_append.1 hname with h1 | h1
    · split at h1
      · rename_i hh; exact case1 hh.1 hh.2 h1
      · simp at h1
    · exact case3 h1

example : createdDatasets ["log_destination_attraction", "theta", "loss", "compute_time"] true ["table_loss"] ["alpha", "beta"] =
    some ["table_loss", "total_loss", "alpha", "beta", "log_destination_attraction", "compute_time"] := by decide +kernel

example : (loadedNames ⟨none, ["ProductionConstrained"], some ["table_loss"]⟩ "SIM_NN").map (·.eraseDups) =
    some ["total_loss", "compute_time", "alpha", "beta", "log_destination_attraction", "delta", "kappa", "sigma", "noise_percentage", "table_loss"] := by
  decide +kernel

example : (loadedNames ⟨some ["intensity", "table"], ["ProductionConstrained"], none⟩ "JointTableSIM_MCMC").map (·.eraseDups) =
    some ["alpha", "beta", "log_destination_attraction", "sign", "table"] := by decide +kernel

/-- C129: a comparison experiment whose configuration also describes a spatial interaction model stores its intensity, but asking for it loads
something else. -/
theorem C129_stored_intensity_false : ¬ ∀ (c : NameCtx) (experiment : String) (declared created : List String),
    declaredOutputs experiment = some declared → createdDatasets declared false [] [] = some created → c.requested = none →
    (∀ m ∈ c.models, m = "TotallyConstrained" ∨ m = "ProductionConstrained") →
    ∀ name ∈ created, ∃ l, loadedNames c experiment = some l ∧ name ∈ l := by
  intro h
  obtain ⟨l, hl, hn⟩ := h ⟨none, ["ProductionConstrained"], none⟩ "XGBoost_Comparison" _ ["intensity", "compute_time"] rfl (by decide +kernel) rfl
    (by simp) "intensity" (by simp)
  have hl2 : (loadedNames ⟨none, ["ProductionConstrained"], none⟩ "XGBoost_Comparison").map (fun l => decide ("intensity" ∈ l)) = some false := by
    decide +kernel
  rw [hl] at hl2
  simp at hl2
  exact hl2 hn

/-- The parameters that the Harris-Wilson model accepts as learnable (`gensit/physics_models/HarrisWilsonModel.py:54`). -/
def Spec.learnable : List String := ["alpha", "beta", "kappa", "sigma", "delta", "epsilon", "bmax"]

/-- C129: not every learnable parameter can be stored: learning `epsilon` or `bmax` fails when the datasets are created, exactly those two. -/
theorem C129_learnable_partial (declared lossFunctions toLearn : List String) (isNN : Bool) (ht : "theta" ∈ declared)
    (hp : ∀ p ∈ toLearn, p ∈ Spec.learnable) :
    (∃ created, createdDatasets declared isNN lossFunctions toLearn = some created) ↔ "epsilon" ∉ toLearn ∧ "bmax" ∉ toLearn := by
  have hk : ∀ p ∈ Spec.learnable, p ∈ outputKeys ↔ p ≠ "epsilon" ∧ p ≠ "bmax" := by decide
  unfold createdDatasets
  simp only [if_pos ht]
  constructor
  · rintro ⟨_, h⟩
    split at h
    · rename_i hall
      have := List.all_eq_true.1 hall
      refine ⟨fun hc => ?_, fun hc => ?_⟩
      · have := (hk _ (hp _ hc)).1 (by simpa using this _ hc); simp at this
      · have := (hk _ (hp _ hc)).1 (by simpa using this _ hc); simp at this
    · simp at h
  · rintro ⟨h1, h2⟩
    rw [if_pos]
    · exact ⟨_, rfl⟩
    · rw [List.all_eq_true]
      intro p hp'
      have := (hk p (hp p hp')).2 ⟨by rintro rfl; exact h1 hp', by rintro rfl; exact h2 hp'⟩
      simpa using this

theorem C129_learnable_false : ¬ ∀ (declared lossFunctions toLearn : List String) (isNN : Bool), "theta" ∈ declared →
    (∀ p ∈ toLearn, p ∈ Spec.learnable) → ∃ created, createdDatasets declared isNN lossFunctions toLearn = some created := by
  intro h
  exact ((C129_learnable_partial ["theta"] [] ["epsilon"] false (by simp) (by decide)).1
    (h ["theta"] [] ["epsilon"] false (by simp) (by decide))).1 (by simp)

theorem declaredOutputs_simMcmc : declaredOutputs "SIM_MCMC" =
    some ["log_destination_attraction", "theta", "sign", "log_target", "compute_timetheta_acc", "log_destination_attraction_acc"] := by
  decide +kernel

/-- Only learned parameters and declared names get a dataset when there is no neural network. -/
theorem mem_createdDatasets {declared toLearn created : List String} (h : createdDatasets declared false [] toLearn = some created) {name : String}
    (hn : name ∈ created) : name ∈ toLearn ∨ name ∈ declared := by
  unfold createdDatasets at h
  simp only [Bool.false_eq_true, and_false, if_false, List.nil_append] at h
  split at h
  · split at h
    · simp only [Option.some.injEq] at h
      subst h
      rcases List.mem_append.1 hn with h1 | h1
      · exact Or.inl h1
      · exact Or.inr (by simpa using (List.mem_filter.1 h1).2)
    · simp at h
  · simp only [Option.some.injEq] at h
    subst h
    exact Or.inr (by simpa using (List.mem_filter.1 hn).2)

/-- C129: the acceptance of parameter updates and the computation time of `SIM_MCMC` are neither given a dataset nor ever written, whatever
the run passes to be written. -/
theorem C129_sim_mcmc_lost {V : Type} (toLearn created : List String) (hp : ∀ p ∈ toLearn, p ∈ Spec.learnable)
    (hc : (declaredOutputs "SIM_MCMC").bind (createdDatasets · false [] toLearn) = some created) (w : Writer V)
    (hw : some w.names = declaredOutputs "SIM_MCMC") (calls : Nat → List (String → Option V)) (N : Nat) :
    ∀ name ∈ ["compute_time", "theta_acc"], name ∉ created ∧ (w.run calls N).rows name = w.rows name := by
  have hnames : ∀ name ∈ ["compute_time", "theta_acc"], name ∉ w.names := by
    rw [declaredOutputs_simMcmc, Option.some.injEq] at hw
    rw [hw]
    decide
  have hwd : ∀ (u : Writer V) kw name, name ∉ u.names → (u.writeData kw).rows name = u.rows name ∧ (u.writeData kw).names = u.names := by
    intro u kw name hn
    unfold Writer.writeData
    split
    · split
      · refine ⟨?_, rfl⟩
        have : u.writes kw name = none := by
          unfold Writer.writes
          rw [if_neg]
          simp [hn]
        simp [this]
      · exact ⟨rfl, rfl⟩
    · exact ⟨rfl, rfl⟩
  have hfold : ∀ (cs : List (String → Option V)) (u : Writer V) name, name ∉ u.names →
      (cs.foldl Writer.writeData u).rows name = u.rows name ∧ (cs.foldl Writer.writeData u).names = u.names := by
    intro cs
    induction cs with
    | nil => intro u name _; exact ⟨rfl, rfl⟩
    | cons k cs ih =>
      intro u name hn
      obtain ⟨h1, h2⟩ := hwd u k name hn
      obtain ⟨h3, h4⟩ := ih (u.writeData k) name (by rw [h2]; exact hn)
      exact ⟨h3.trans h1, h4.trans h2⟩
  have hrun : ∀ name, name ∉ w.names → (w.run calls N).rows name = w.rows name ∧ (w.run calls N).names = w.names := by
    intro name hn
    induction N with
    | zero => exact ⟨rfl, rfl⟩
    | succ N ih =>
      obtain ⟨h3, h4⟩ := hfold (calls (N + 1)) (w.run calls N) name (by rw [ih.2]; exact hn)
      exact ⟨h3.trans ih.1, h4.trans ih.2⟩
  intro name hname
  refine ⟨?_, (hrun name (hnames name hname)).1⟩
  rw [declaredOutputs_simMcmc, Option.bind_some] at hc
  have hdecl : ∀ n ∈ ["compute_time", "theta_acc"], n ∉ Spec.learnable ∧
      n ∉ ["log_destination_attraction", "theta", "sign", "log_target", "compute_timetheta_acc", "log_destination_attraction_acc"] := by decide
  intro hm
  rcases mem_createdDatasets hc hm with h1 | h1
  · exact (hdecl name hname).1 (hp _ h1)
  · exact (hdecl name hname).2 h1

example : (declaredOutputs "SIM_MCMC").bind (createdDatasets · false [] ["alpha", "beta"]) =
    some ["alpha", "beta", "log_destination_attraction", "log_target", "sign", "log_destination_attraction_acc"] := by decide +kernel

/-- C129: the log target has a dataset in the Markov chain experiments, but nothing is ever written to it. -/
theorem C129_log_target_empty {V : Type} (w : Writer V) (calls : Nat → List (String → Option V)) (N : Nat) :
    (w.run calls N).rows "log_target" = w.rows "log_target" := by
  have hwd : ∀ (u : Writer V) kw, (u.writeData kw).rows "log_target" = u.rows "log_target" := by
    intro u kw
    have : u.writes kw "log_target" = none := by
      unfold Writer.writes
      rw [if_neg]
      simp [plainSamples]
    unfold Writer.writeData
    split
    · split
      · simp [this]
      · rfl
    · rfl
  have hfold : ∀ (cs : List (String → Option V)) (u : Writer V), (cs.foldl Writer.writeData u).rows "log_target" = u.rows "log_target" := by
    intro cs
    induction cs with
    | nil => intro u; rfl
    | cons k cs ih => intro u; rw [List.foldl_cons, ih, hwd]
  induction N with
  | zero => rfl
  | succ N ih =>
    show (((calls (N + 1)).foldl Writer.writeData (w.run calls N)).rows "log_target") = _
    rw [hfold, ih]

end GeNSIT
