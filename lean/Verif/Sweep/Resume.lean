import Verif.Sweep.Props

/-!
# Property theorem C169 (resuming an unfinished sweep)

`ExperimentSweep.__init__`, `load_config`, `run` (`experiments.py:3598-3746`) and `Config.trim_sweep_configurations`
(`config.py:1176-1206`), called with `--load_experiment`.
-/

namespace GeNSIT

/-- A key of a Python dictionary. -/
inductive DictKey where
  | int (i : Nat)
  | str (s : String)
  deriving DecidableEq

/-- `d[k]`; `none` = `KeyError`. -/
def dictItem {V : Type} (d : List (DictKey × V)) (k : DictKey) : Option V := (d.find? fun p => p.1 == k).map Prod.snd

/-- The value read by `prepare_experiment_config(sweep_configuration, …)` for the parameters `0, …, k-1`
(`config.py:1094-1118`): `sweep_configuration[i]` for each of them. -/
def readPositions {V : Type} (sweepConfiguration : List (DictKey × V)) (k : Nat) : Option (List V) :=
  (List.range k).mapM fun i => dictItem sweepConfiguration (.int i)

/-- `self.sweep_params`: a dictionary with the keys `isolated` and `coupled` (`config.py`, `parse_sweep_params`). -/
def sweepParamsDict {V : Type} (isolated coupled : V) : List (DictKey × V) :=
  [(.str "isolated", isolated), (.str "coupled", coupled)]

/-- `self.outputs_path` of a `Config` (`config.py:1192`): no assignment to such an attribute exists, only `Outputs` objects have
one (`outputs.py:112`, `:171`); `none` = `AttributeError`. -/
def configOutputsPath : Option String := none

/-- The names looked for, in the order of the loop (`config.py:1189`). -/
def resumeFiles : List String := ["metadata.json", "data.h5", "outputs.log"]

/-- `data_exists` (`config.py:1188-1202`) given the file test of one configuration's folder: the path tested is that of
`outputs.log` for each of the three names. -/
def dataExists (isFile : String → Bool) : Bool := resumeFiles.all fun _ => isFile "outputs.log"

/-- `list(trim_sweep_configurations())` (`config.py:1176-1206`), `none` = exception: the dictionary of sweep parameters is passed as
the configuration (`:1180-1183`), and the folder is looked up on the configuration. -/
def trimConfigurations {C : Type} (nParams : Nat) (isFile : C → String → Bool) : List C → Option (List C)
  | [] => some []
  | c :: cs => do
      let _ ← readPositions (sweepParamsDict () ()) nParams
      let _ ← configOutputsPath
      let rest ← trimConfigurations nParams isFile cs
      return if dataExists (isFile c) then rest else c :: rest

/-- What a sweep is started with. -/
structure SweepStart (C : Type) where
  /-- `--load_experiment` names an experiment -/
  asked : Bool
  /-- its configuration can be read and validates -/
  readable : Bool
  /-- number of swept parameters, and the configurations, of the experiment named -/
  nParams : Nat
  oldConfigs : List C
  /-- the configurations of the configuration given now -/
  newConfigs : List C
  /-- the data set is itself swept -/
  datasetSwept : Bool
  /-- the files in the folder of a configuration -/
  isFile : C → String → Bool

/-- What happens: an exception, or the configurations that are run, adding to the existing experiment or not. -/
inductive SweepOutcome (C : Type) where
  | raises
  | runs (appending : Bool) (configs : List C)

/-- `ExperimentSweep(config).run()` (`experiments.py:3598-3746`).  Any exception while reading the named experiment is swallowed
(`:3727-3728`).  The trimmed list replaces `self.outputs.config` (`:3679`), whose `settings` are read next
unless the data set is swept (`:3684`, `outputs.py:974`), while the configurations run are those of `self.config`
(`experiments.py:3743-3746`). -/
def startSweep {C : Type} (s : SweepStart C) : SweepOutcome C :=
  if s.asked && s.readable then
    match trimConfigurations s.nParams s.isFile s.oldConfigs with
    | none => .raises
    | some _ => if s.datasetSwept then .runs true s.oldConfigs else .raises
  else .runs false s.newConfigs

/-- Specification: the data of a configuration is complete. -/
def Spec.Finished (isFile : String → Bool) : Prop :=
  isFile "metadata.json" = true ∧ isFile "data.h5" = true ∧ isFile "outputs.log" = true

open Classical in
/-- Specification: resuming runs, in order, the configurations of the named experiment that are not finished. -/
def Spec.ResumesUnfinished {C : Type} (s : SweepStart C) : Prop :=
  startSweep s = .runs true (s.oldConfigs.filter fun c => decide (¬ Spec.Finished (s.isFile c)))

/-- **C169** fails always: whatever is finished, resuming a readable sweep with a configuration raises (and so does one without, unless
the data set is swept); no configuration is run. -/
theorem C169_resume_raises {C : Type} (s : SweepStart C) (h1 : s.asked = true) (h2 : s.readable = true)
    (h : s.oldConfigs ≠ [] ∨ s.datasetSwept = false) : startSweep s = .raises := by
  unfold startSweep
  rw [h1, h2]
  simp only [Bool.and_true, if_true]
  cases hc : s.oldConfigs with
  | nil =>
    rcases h with h | h
    · exact absurd hc h
    · simp [trimConfigurations, h]
  | cons c cs =>
    have : trimConfigurations s.nParams s.isFile (c :: cs) = none := by
      simp only [trimConfigurations, configOutputsPath]
      cases readPositions (sweepParamsDict () ()) s.nParams <;> rfl
    simp [this]

/-- The first of the two reasons alone suffices as soon as a parameter is swept: the parameter is looked up by its position in a
dictionary keyed by names. -/
theorem C169_lookup_fails {V : Type} (isolated coupled : V) (k : Nat) (hk : 0 < k) :
    readPositions (sweepParamsDict isolated coupled) k = none := by
  obtain ⟨k, rfl⟩ : ∃ j, k = j + 1 := ⟨k - 1, by omega⟩
  unfold readPositions
  rw [List.range_succ_eq_map]
  simp [dictItem, sweepParamsDict]

/-- An experiment that cannot be read is not reported: every configuration is run again, as a new experiment. -/
theorem C169_unreadable_restarts {C : Type} (s : SweepStart C) (h : s.readable = false) :
    startSweep s = .runs false s.newConfigs := by
  simp [startSweep, h]

/-- Without `--load_experiment` every configuration is run, once each and in order. -/
theorem C169_not_asked {C : Type} (s : SweepStart C) (h : s.asked = false) : startSweep s = .runs false s.newConfigs := by
  simp [startSweep, h]

/-- The only case in which a named experiment is resumed: nothing is left to do in it. -/
theorem C169_resumed_iff {C : Type} (s : SweepStart C) (cs : List C) :
    startSweep s = .runs true cs ↔
      s.asked = true ∧ s.readable = true ∧ s.datasetSwept = true ∧ s.oldConfigs = [] ∧ cs = [] := by
  constructor
  · intro h
    by_cases ha : s.asked = true ∧ s.readable = true
    · by_cases hb : s.oldConfigs ≠ [] ∨ s.datasetSwept = false
      · rw [C169_resume_raises s ha.1 ha.2 hb] at h
        cases h
      · simp only [not_or, not_not, Bool.not_eq_false] at hb
        have : startSweep s = .runs true s.oldConfigs := by
          simp [startSweep, ha.1, ha.2, hb.1, hb.2, trimConfigurations]
        rw [this] at h
        injection h with _ h
        exact ⟨ha.1, ha.2, hb.2, hb.1, h ▸ hb.1⟩
    · have : (s.asked && s.readable) = false := by
        cases h1 : s.asked <;> cases h2 : s.readable <;> simp_all
      simp [startSweep, this] at h
  · rintro ⟨h1, h2, h3, h4, rfl⟩
    simp [startSweep, h1, h2, h3, h4, trimConfigurations]

/-- The test of what is finished looks at the log only. -/
theorem C169_check_iff (isFile : String → Bool) : dataExists isFile = true ↔ isFile "outputs.log" = true := by
  simp [dataExists, resumeFiles]

/-- Hence a configuration without any stored data counts as finished once its log exists. -/
theorem C169_check_false : ∃ isFile : String → Bool, dataExists isFile = true ∧ ¬ Spec.Finished isFile ∧ isFile "data.h5" = false :=
  ⟨fun f => f == "outputs.log", by decide +kernel, fun h => absurd h.2.1 (by decide +kernel), by decide +kernel⟩

/-- "Resuming a sweep runs the configurations that are not finished" is false for every readable sweep that has one. -/
theorem C169_false {C : Type} (s : SweepStart C) (h1 : s.asked = true) (h2 : s.readable = true) (h : s.oldConfigs ≠ []) :
    ¬ Spec.ResumesUnfinished s := by
  unfold Spec.ResumesUnfinished
  rw [C169_resume_raises s h1 h2 (Or.inl h)]
  intro h
  cases h

/-- A sweep of three configurations interrupted after the first. -/
def interrupted : SweepStart Nat where
  asked := true
  readable := true
  nParams := 1
  oldConfigs := [10, 20, 30]
  newConfigs := [10, 20, 30]
  datasetSwept := false
  isFile := fun c _ => c == 10

example : startSweep interrupted = .raises ∧ ¬ Spec.ResumesUnfinished interrupted ∧
    startSweep { interrupted with readable := false } = .runs false [10, 20, 30] ∧
    startSweep { interrupted with asked := false } = .runs false [10, 20, 30] :=
  ⟨C169_resume_raises _ rfl rfl (Or.inl (by decide)), C169_false _ rfl rfl (by decide), C169_unreadable_restarts _ rfl,
    C169_not_asked _ rfl⟩

example : readPositions ([(.int 0, 5), (.int 1, 6)] : List (DictKey × Nat)) 2 = some [5, 6] := by decide +kernel

end GeNSIT
