import Mathlib.Algebra.Field.Rat
import Mathlib.Data.List.Basic
import Mathlib.Data.List.Induction
import Mathlib.Data.List.Nodup
import Mathlib.Data.List.Range
import Mathlib.Logic.Function.Iterate
import Mathlib.Logic.Function.Basic
import Mathlib.Tactic.NormNum

/-!
# C163: hyperparameter trials that run at the same time

`optimise_experiments_sequentially` (`gensit/experiments.py:128-190`) hands `experiment.run` to `study.optimize` with `n_jobs = n_workers`: the trials are calls of a
method of *one* experiment, in as many threads as there are workers.  `run` (`gensit/experiments.py:2037-2204, 2280-2468, 2544-2729`) keeps the learning model in
`self.learning_model`, the list of validation metrics in a local variable; `update_optimisation_progress` (`gensit/experiments.py:786-810`) reports to the trial of `self.learning_model`.

Simplifications: an epoch is one atomic step (finer interleavings only add behaviours), the state of a model is abstract, draws are part of it, and pruning is left out.
-/

namespace GeNSIT

variable {W K : Type}

/-- What depends on the suggested hyperparameters of a trial: the fresh model, a gradient step of it and the metric of its predictions. -/
structure TrialModels (W K : Type) where
  init : ℕ → W
  step : ℕ → W → W
  metric : ℕ → W → K

/-- The experiment: `self.learning_model` (the trial it was built for and its state), the local list of metrics of every call of `run`, and what was reported to the study
(trial, epoch, value). -/
structure StudyState (W K : Type) where
  model : Option (ℕ × W)
  metrics : ℕ → List K
  reports : List (ℕ × ℕ × K)

/-- Steps of the threads. -/
inductive TrialOp
  | start (i : ℕ)
  | epoch (i : ℕ)
deriving DecidableEq, Repr

/-- One step: building the model (`experiments.py:2047-2063`), or one epoch (lines 2098-2183): the prediction is made before the weights are updated.  An epoch before any model was built
does not occur; it is left without effect. -/
def studyStep (M : TrialModels W K) (s : StudyState W K) : TrialOp → StudyState W K
  | .start i => { model := some (i, M.init i), metrics := Function.update s.metrics i [], reports := s.reports }
  | .epoch i =>
    match s.model with
    | none => s
    | some (t, w) =>
      { model := some (t, M.step t w)
        metrics := Function.update s.metrics i (s.metrics i ++ [M.metric t w])
        reports := s.reports ++ [(t, (s.metrics i).length, M.metric t w)] }

/-- A schedule of the threads. -/
def studyRun (M : TrialModels W K) (s : StudyState W K) (ops : List TrialOp) : StudyState W K := ops.foldl (studyStep M) s

/-- A trial from start to end: `N` epochs (`training.N`). -/
def trialOps (N i : ℕ) : List TrialOp := .start i :: List.replicate N (.epoch i)

/-- The value returned to the study: `np.mean(validation_metrics)` (line 2204). -/
def trialValue [_root_.Field K] (s : StudyState W K) (i : ℕ) : K := (s.metrics i).sum / (s.metrics i).length

/-! ### Specification -/

/-- The metrics of trial `i` along the training of its own model. -/
def Spec.ownMetrics (M : TrialModels W K) (i N : ℕ) : List K := (List.range N).map fun k => M.metric i ((M.step i)^[k] (M.init i))

/-! ### Theorems -/

theorem studyRun_append (M : TrialModels W K) (s : StudyState W K) (a b : List TrialOp) : studyRun M s (a ++ b) = studyRun M (studyRun M s a) b :=
  List.foldl_append

theorem run_epochs (M : TrialModels W K) (i : ℕ) (s0 : StudyState W K) (N : ℕ) :
    (studyRun M s0 (trialOps N i)).model = some (i, (M.step i)^[N] (M.init i)) ∧
      (studyRun M s0 (trialOps N i)).metrics = Function.update s0.metrics i (Spec.ownMetrics M i N) ∧
      (studyRun M s0 (trialOps N i)).reports = s0.reports ++ (List.range N).map fun k => (i, k, M.metric i ((M.step i)^[k] (M.init i))) := by
  induction N with
  | zero => simp [trialOps, studyRun, studyStep, Spec.ownMetrics]
  | succ N ih =>
    obtain ⟨h1, h2, h3⟩ := ih
    have e : trialOps (N + 1) i = trialOps N i ++ [.epoch i] := by
      unfold trialOps
      rw [List.replicate_succ', List.cons_append]
    rw [e, studyRun_append]
    generalize studyRun M s0 (trialOps N i) = s at *
    have hl : (Spec.ownMetrics M i N).length = N := by simp [Spec.ownMetrics]
    have hs : Spec.ownMetrics M i (N + 1) = Spec.ownMetrics M i N ++ [M.metric i ((M.step i)^[N] (M.init i))] := by
      simp [Spec.ownMetrics, List.range_succ]
    refine ⟨?_, ?_, ?_⟩
    · simp only [studyRun, List.foldl_cons, List.foldl_nil, studyStep, h1]
      rw [Function.iterate_succ_apply']
    · simp only [studyRun, List.foldl_cons, List.foldl_nil, studyStep, h1, h2]
      rw [hs]
      simp
    · simp only [studyRun, List.foldl_cons, List.foldl_nil, studyStep, h1, h2, h3]
      rw [List.range_succ, List.map_append, ← List.append_assoc]
      simp [hl]

/-- **C163 (a trial on its own).** Whatever happened before, a trial that runs without interruption has the metrics of its own model and reports them as its own. -/
theorem C163_isolated (M : TrialModels W K) (s : StudyState W K) (N i : ℕ) :
    (studyRun M s (trialOps N i)).metrics i = Spec.ownMetrics M i N ∧
      (studyRun M s (trialOps N i)).reports = s.reports ++ (List.range N).map fun k => (i, k, M.metric i ((M.step i)^[k] (M.init i))) := by
  obtain ⟨_, h2, h3⟩ := run_epochs M i s N
  exact ⟨by rw [h2]; simp, h3⟩

/-- **C163 (one worker).** With one worker every trial has the metrics of its own model, and all reports are those of the models they are about. -/
theorem C163_one_worker_partial (M : TrialModels W K) (s : StudyState W K) (N : ℕ) (trials : List ℕ) (hn : trials.Nodup) :
    (∀ i ∈ trials, (studyRun M s (trials.flatMap (trialOps N))).metrics i = Spec.ownMetrics M i N) ∧
      (studyRun M s (trials.flatMap (trialOps N))).reports =
        s.reports ++ trials.flatMap fun i => (List.range N).map fun k => (i, k, M.metric i ((M.step i)^[k] (M.init i))) := by
  induction trials generalizing s with
  | nil => simp [studyRun]
  | cons a r ih =>
    rw [List.nodup_cons] at hn
    rw [List.flatMap_cons, studyRun_append]
    obtain ⟨_, h2, h3⟩ := run_epochs M a s N
    obtain ⟨i1, i2⟩ := ih (studyRun M s (trialOps N a)) hn.2
    refine ⟨?_, by rw [i2, h3]; simp⟩
    intro i hi
    rcases List.mem_cons.1 hi with rfl | hr
    · have frame : ∀ (l : List ℕ) (s : StudyState W K), i ∉ l → (studyRun M s (l.flatMap (trialOps N))).metrics i = s.metrics i := by
        intro l
        induction l with
        | nil => intro s _; rfl
        | cons b l ihl =>
          intro s hb
          rw [List.mem_cons, not_or] at hb
          rw [List.flatMap_cons, studyRun_append, ihl _ hb.2, (run_epochs M b s N).2.1]
          exact Function.update_of_ne hb.1 _ _
      rw [frame r _ hn.1, h2]
      simp
    · exact i1 i hr

/-- **C163 (one worker, value).** The value the study gets for a trial is then the mean of its own metrics over the epochs. -/
theorem C163_one_worker_value_partial [_root_.Field K] (M : TrialModels W K) (s : StudyState W K) (N : ℕ) (trials : List ℕ) (hn : trials.Nodup) (i : ℕ) (hi : i ∈ trials) :
    trialValue (studyRun M s (trials.flatMap (trialOps N))) i = ((List.range N).map fun k => M.metric i ((M.step i)^[k] (M.init i))).sum / (N : K) := by
  unfold trialValue
  rw [(C163_one_worker_partial M s N trials hn).1 i hi]
  simp [Spec.ownMetrics]

theorem run_starts (M : TrialModels W K) (s : StudyState W K) (r : List ℕ) (l : ℕ) :
    (studyRun M s ((r ++ [l]).map .start)).model = some (l, M.init l) ∧ (∀ i ∈ r ++ [l], (studyRun M s ((r ++ [l]).map .start)).metrics i = []) ∧
      (studyRun M s ((r ++ [l]).map .start)).reports = s.reports := by
  have hr : ∀ (r : List ℕ) (s : StudyState W K), (∀ i, (i ∈ r ∨ s.metrics i = []) → (studyRun M s (r.map .start)).metrics i = []) ∧
      (studyRun M s (r.map .start)).reports = s.reports := by
    intro r
    induction r with
    | nil =>
      intro s
      refine ⟨fun i hi => ?_, rfl⟩
      rcases hi with hi | hi
      · simp at hi
      · exact hi
    | cons a r ih =>
      intro s
      obtain ⟨h1, h2⟩ := ih (studyStep M s (.start a))
      refine ⟨fun i hi => h1 i ?_, h2⟩
      by_cases hia : i = a
      · right; simp [studyStep, hia]
      · rcases hi with hi | hi
        · left
          rcases List.mem_cons.1 hi with h | h
          · exact absurd h hia
          · exact h
        · right
          simp [studyStep, hia, hi]
  refine ⟨?_, fun i hi => (hr _ s).1 i (.inl hi), (hr _ s).2⟩
  rw [List.map_append, studyRun_append]
  rfl

/-- **C163 (several workers, exact behaviour).** If several trials start before the first epoch, every epoch — whichever trial runs it — trains, evaluates and reports for the model of the
trial that started last: the `k`-th epoch overall gets the `k`-th metric of that model, and every trial collects the metrics of the epochs that fell to it. -/
theorem C163_several_workers (M : TrialModels W K) (s : StudyState W K) (r : List ℕ) (l : ℕ) (es : List ℕ) (hes : ∀ i ∈ es, i ∈ r ++ [l]) :
    let s' := studyRun M s ((r ++ [l]).map .start ++ es.map .epoch)
    s'.model = some (l, (M.step l)^[es.length] (M.init l)) ∧
      (∀ i ∈ r ++ [l], s'.metrics i = ((List.range es.length).filter fun k => es[k]? = some i).map fun k => M.metric l ((M.step l)^[k] (M.init l))) ∧
      ∃ steps : List ℕ, steps.length = es.length ∧
        s'.reports = s.reports ++ (List.range es.length).map fun k => (l, steps.getD k 0, M.metric l ((M.step l)^[k] (M.init l))) := by
  intro s'
  obtain ⟨a1, a2, a3⟩ := run_starts M s r l
  have hs' : s' = studyRun M (studyRun M s ((r ++ [l]).map .start)) (es.map .epoch) := studyRun_append M s _ _
  rw [hs']
  clear hs' s'
  generalize studyRun M s ((r ++ [l]).map .start) = t at *
  induction es using List.reverseRecOn with
  | nil => exact ⟨a1, by simpa [studyRun] using a2, [], rfl, by simpa [studyRun] using a3⟩
  | append_singleton es e ih =>
    obtain ⟨b1, b2, steps, b3, b4⟩ := ih fun i hi => hes i (by simp [hi])
    rw [List.map_append, studyRun_append]
    generalize studyRun M t (es.map .epoch) = u at *
    have hu : studyRun M u ([e].map .epoch) =
        { model := some (l, M.step l ((M.step l)^[es.length] (M.init l)))
          metrics := Function.update u.metrics e (u.metrics e ++ [M.metric l ((M.step l)^[es.length] (M.init l))])
          reports := u.reports ++ [(l, (u.metrics e).length, M.metric l ((M.step l)^[es.length] (M.init l)))] } := by
      simp only [List.map_cons, List.map_nil, studyRun, List.foldl_cons, List.foldl_nil, studyStep, b1]
    rw [hu]
    refine ⟨?_, ?_, steps ++ [(u.metrics e).length], by simp [b3], ?_⟩
    · simp only [List.length_append, List.length_cons, List.length_nil, zero_add]
      rw [Function.iterate_succ_apply']
    · intro i hi
      simp only [List.length_append, List.length_cons, List.length_nil, zero_add]
      have hf : (List.range es.length).filter (fun k => (es ++ [e])[k]? = some i) = (List.range es.length).filter (fun k => es[k]? = some i) := by
        refine List.filter_congr fun k hk => ?_
        rw [List.mem_range] at hk
        rw [List.getElem?_append_left hk]
      rw [List.range_succ, List.filter_append, hf, List.map_append, ← b2 i hi]
      by_cases hie : i = e
      · subst hie
        simp
      · rw [Function.update_of_ne hie]
        have : ¬ (e = i) := fun h => hie h.symm
        simp [this]
    · simp only [List.length_append, List.length_cons, List.length_nil, zero_add]
      rw [b4, List.range_succ, List.map_append, List.append_assoc]
      congr 2
      · refine List.map_congr_left fun k hk => ?_
        rw [List.mem_range] at hk
        rw [List.getD_eq_getElem?_getD, List.getD_eq_getElem?_getD, List.getElem?_append_left (by omega)]
      · simp [← b3]

/-- Models of the examples: trial `i` starts at `i`, a step adds ten, the metric is the state. -/
def demoTrials : TrialModels ℚ ℚ where
  init := fun i => i
  step := fun _ w => w + 10
  metric := fun _ w => w

/-- The state before the study. -/
def studyInit : StudyState W K := ⟨none, fun _ => [], []⟩

/-- **C163 is false of several workers**: two trials of one epoch that start together: the first gets the metric of the model of the second, and the second that of its model after the
first trial's epoch. -/
theorem C163_several_workers_false : ¬ ∀ (M : TrialModels ℚ ℚ) (ops : List TrialOp) (N : ℕ),
    (∀ i < 2, ops.filter (fun o => o = .start i ∨ o = .epoch i) = trialOps N i) →
    ∀ i < 2, trialValue (studyRun M studyInit ops) i = (Spec.ownMetrics M i N).sum / N := by
  intro h
  have h1 := h demoTrials [.start 0, .start 1, .epoch 0, .epoch 1] 1 (by
    intro i hi
    rcases i with _ | _ | i
    · decide
    · decide
    · omega) 0 (by omega)
  simp [trialValue, studyRun, studyStep, demoTrials, Spec.ownMetrics, studyInit] at h1

example : trialValue (studyRun demoTrials studyInit ([0, 1].flatMap (trialOps 2))) 1 = 6 := by
  rw [C163_one_worker_value_partial demoTrials studyInit 2 [0, 1] (by simp) 1 (by simp)]
  norm_num [demoTrials, List.range_succ]

example : ((studyRun demoTrials studyInit [.start 0, .start 1, .epoch 0, .epoch 1, .epoch 0]).metrics 0 = [1, 21]) ∧
    ((studyRun demoTrials studyInit [.start 0, .start 1, .epoch 0, .epoch 1, .epoch 0]).reports.map Prod.fst = [1, 1, 1]) := by
  constructor
  · norm_num [studyRun, studyStep, demoTrials, studyInit]
  · rfl

end GeNSIT
