import Mathlib.Algebra.BigOperators.Fin
import Mathlib.Algebra.BigOperators.Field
import Mathlib.Algebra.Field.Basic
import Mathlib.Algebra.Field.Rat
import Mathlib.Data.Fin.VecNotation
import Mathlib.Data.List.Nodup
import Mathlib.Data.Fintype.BigOperators
import Mathlib.Logic.Function.Basic
import Mathlib.Tactic.NormNum
import Mathlib.Tactic.Ring
import Mathlib.Tactic.FieldSimp

/-!
# C160: the losses of a training step

Model of `HarrisWilson_NN.update_loss` (`gensit/learning_models/HarrisWilsonModel_NeuralNet.py:421-547`), of the tables it uses
(`gensit/static/global_variables.py:84-118, 646-731`) and of what the experiments hand to it (`gensit/experiments.py:2143-2152, 2386-2396, 2661-2690`).
Single precision and the graph of the automatic differentiation are not modelled here (the latter in `Verif/NN/Learning.lean`).
-/

namespace GeNSIT

/-- What `update_loss` raises. -/
inductive LossErr
  | requirement
  | missingPrediction (d : String)
  | sizes
  | missingValidation (d : String)
  | zeroDivision
deriving DecidableEq, Repr

/-- Data a loss needs. -/
structure LossReq where
  pred : List String
  valid : List String
deriving DecidableEq, Repr

/-- `LOSS_DATA_REQUIREMENTS` (`global_variables.py:84-110`): four losses and their likelihood variants; `total_loss` and `loss` have no entries and raise
`KeyError`, as do unknown names. -/
def lossReq (name : String) : Option LossReq :=
  if name ∈ ["dest_attraction_ts_loss", "dest_attraction_ts_likelihood_loss"] then some ⟨["destination_attraction_ts"], ["destination_attraction_ts"]⟩
  else if name ∈ ["table_loss", "table_likelihood_loss"] then some ⟨["table"], ["log_intensity"]⟩
  else if name ∈ ["total_table_distance_loss", "total_table_distance_likelihood_loss"] then some ⟨["table"], ["cost_matrix", "total_cost_by_origin"]⟩
  else if name ∈ ["total_intensity_distance_loss", "total_intensity_distance_likelihood_loss"] then
    some ⟨["intensity"], ["cost_matrix", "total_cost_by_origin"]⟩
  else none

/-- The names compared through the cost by origin (lines 480-481). -/
def costLosses : List String :=
  ["total_table_distance_loss", "total_table_distance_likelihood_loss", "total_intensity_distance_loss", "total_intensity_distance_likelihood_loss"]

variable {X K : Type} [_root_.Field K]

/-- The loss functions by name (with their keyword arguments) and the cost by origin of a prediction. -/
structure LossEnv (X K : Type) where
  fn : String → X → X → K
  cost : X → X → X

/-- The data set a loss is compared with: the data passed, else the stored inputs (lines 458-460). -/
def validData (valid aux : String → Option X) (d : String) : Option X :=
  match valid d with
  | some v => some v
  | none => aux d

/-- The body of the loop over the names for one name (lines 437-543): the Monte Carlo mean of the loss over the predicted samples. -/
def oneLoss [Inhabited X] (env : LossEnv X K) (pred : String → Option (List X)) (valid aux : String → Option X) (name : String) : Except LossErr K :=
  match lossReq name with
  | none => .error .requirement
  | some r =>
    match r.pred.find? (fun d => (pred d).isNone) with
    | some d => .error (.missingPrediction d)
    | none =>
      if (r.pred.map fun d => ((pred d).getD []).length).dedup.length ≠ 1 then .error .sizes
      else
        match r.valid.find? (fun d => (validData valid aux d).isNone) with
        | some d => .error (.missingValidation d)
        | none =>
          let samples := (pred (r.pred.headD "")).getD []
          let v := fun d => (validData valid aux d).getD default
          if samples.length = 0 then .error .zeroDivision
          else
            let values := samples.map fun p =>
              if name ∈ costLosses then env.fn name (env.cost p (v "cost_matrix")) (v "total_cost_by_origin")
              else env.fn name p (v (r.valid.headD ""))
            .ok (values.sum / samples.length)

/-- The loop over the names, in the order in which the set is visited (lines 434-547): the losses and the numbers of processed steps. -/
def updateLosses [Inhabited X] (env : LossEnv X K) (pred : String → Option (List X)) (valid aux : String → Option X) :
    List String → (String → K) × (String → ℕ) → Except LossErr ((String → K) × (String → ℕ))
  | [], st => .ok st
  | n :: ns, st =>
    match oneLoss env pred valid aux n with
    | .error e => .error e
    | .ok v => updateLosses env pred valid aux ns (Function.update st.1 n (st.1 n + v), Function.update st.2 n (st.2 n + 1))

/-! ### Specification -/

/-- The mean of the values of `f` on a list of samples. -/
def Spec.meanOver (l : List X) (f : X → K) : K := (l.map f).sum / l.length

/-- What a loss compares: the predicted data set and the observed one. -/
inductive Spec.Compares : String → String → String → Prop
  | attraction : Spec.Compares "dest_attraction_ts_loss" "destination_attraction_ts" "destination_attraction_ts"
  | attractionL : Spec.Compares "dest_attraction_ts_likelihood_loss" "destination_attraction_ts" "destination_attraction_ts"
  | table : Spec.Compares "table_loss" "table" "log_intensity"
  | tableL : Spec.Compares "table_likelihood_loss" "table" "log_intensity"

/-- Losses on the total cost by origin and the prediction they use. -/
inductive Spec.ComparesCost : String → String → Prop
  | table : Spec.ComparesCost "total_table_distance_loss" "table"
  | tableL : Spec.ComparesCost "total_table_distance_likelihood_loss" "table"
  | intensity : Spec.ComparesCost "total_intensity_distance_loss" "intensity"
  | intensityL : Spec.ComparesCost "total_intensity_distance_likelihood_loss" "intensity"

/-! ### Theorems -/

/-- **C160 (direct losses).** A loss on attractions or tables is the mean, over the predicted samples, of the loss function between the sample and the
observation, which is the one passed or else the stored one. -/
theorem C160_mean [Inhabited X] (env : LossEnv X K) (pred : String → Option (List X)) (valid aux : String → Option X) {name d o : String}
    (hc : Spec.Compares name d o) (samples : List X) (hs : pred d = some samples) (hne : samples ≠ []) (y : X)
    (hy : valid o = some y ∨ (valid o = none ∧ aux o = some y)) :
    oneLoss env pred valid aux name = .ok (Spec.meanOver samples fun p => env.fn name p y) := by
  have hv : validData valid aux o = some y := by
    unfold validData
    rcases hy with h | ⟨h1, h2⟩
    · rw [h]
    · rw [h1]; exact h2
  have hl : samples.length ≠ 0 := fun h => hne (List.length_eq_zero_iff.1 h)
  cases hc <;> simp [oneLoss, lossReq, costLosses, hs, hv, hl, Spec.meanOver]

/-- **C160 (losses on costs).** A loss on the total cost by origin is the mean, over the samples, of the loss between the normalised cost of the sample and the observed one. -/
theorem C160_cost_mean [Inhabited X] (env : LossEnv X K) (pred : String → Option (List X)) (valid aux : String → Option X) {name d : String}
    (hc : Spec.ComparesCost name d) (samples : List X) (hs : pred d = some samples) (hne : samples ≠ []) (c y : X)
    (hcm : validData valid aux "cost_matrix" = some c) (hy : validData valid aux "total_cost_by_origin" = some y) :
    oneLoss env pred valid aux name = .ok (Spec.meanOver samples fun p => env.fn name (env.cost p c) y) := by
  have hl : samples.length ≠ 0 := fun h => hne (List.length_eq_zero_iff.1 h)
  cases hc <;> simp [oneLoss, lossReq, costLosses, hs, hcm, hy, hl, Spec.meanOver]

/-- **C160 (what is refused).** A loss raises exactly when its name is unknown, its prediction is missing or has no samples, or an observation it needs is neither passed nor stored. -/
theorem C160_raises_iff [Inhabited X] (env : LossEnv X K) (pred : String → Option (List X)) (valid aux : String → Option X) (name : String) :
    (∃ e, oneLoss env pred valid aux name = .error e) ↔
      ¬ ((∃ d o, Spec.Compares name d o ∧ (∃ s, pred d = some s ∧ s ≠ []) ∧ validData valid aux o ≠ none) ∨
        (∃ d, Spec.ComparesCost name d ∧ (∃ s, pred d = some s ∧ s ≠ []) ∧ validData valid aux "cost_matrix" ≠ none ∧
          validData valid aux "total_cost_by_origin" ≠ none)) := by
  constructor
  · rintro ⟨e, he⟩ (⟨d, o, hc, ⟨s, hs, hne⟩, hv⟩ | ⟨d, hc, ⟨s, hs, hne⟩, hv1, hv2⟩)
    · rw [Option.ne_none_iff_exists'] at hv
      obtain ⟨y, hy⟩ := hv
      have hy' : valid o = some y ∨ (valid o = none ∧ aux o = some y) := by
        unfold validData at hy
        cases h : valid o with
        | none => rw [h] at hy; exact .inr ⟨rfl, hy⟩
        | some v => rw [h] at hy; exact .inl hy
      rw [C160_mean env pred valid aux hc s hs hne y hy'] at he
      simp at he
    · rw [Option.ne_none_iff_exists'] at hv1 hv2
      obtain ⟨c, hcm⟩ := hv1
      obtain ⟨y, hy⟩ := hv2
      rw [C160_cost_mean env pred valid aux hc s hs hne c y hcm hy] at he
      simp at he
  · intro h
    rw [not_or] at h
    have key : ∀ d o, (oneLoss env pred valid aux name =
        match pred d with
        | none => .error (.missingPrediction d)
        | some s => match validData valid aux o with
          | none => .error (.missingValidation o)
          | some y => if s.length = 0 then .error .zeroDivision else .ok ((s.map fun p => env.fn name p y).sum / s.length)) →
        Spec.Compares name d o → ∃ e, oneLoss env pred valid aux name = .error e := by
      intro d o he hc
      cases hp : pred d with
      | none => exact ⟨_, by rw [he, hp]⟩
      | some s =>
        cases hv : validData valid aux o with
        | none => exact ⟨.missingValidation o, by rw [he, hp]; simp only [hv]⟩
        | some y =>
          by_cases hs : s.length = 0
          · exact ⟨.zeroDivision, by rw [he, hp]; simp only [hv, hs, if_true]⟩
          · exact absurd ⟨d, o, hc, ⟨s, hp, fun h0 => hs (by rw [h0]; rfl)⟩, by rw [hv]; simp⟩ h.1
    have keyC : ∀ d, (oneLoss env pred valid aux name =
        match pred d with
        | none => .error (.missingPrediction d)
        | some s => match validData valid aux "cost_matrix" with
          | none => .error (.missingValidation "cost_matrix")
          | some c => match validData valid aux "total_cost_by_origin" with
            | none => .error (.missingValidation "total_cost_by_origin")
            | some y => if s.length = 0 then .error .zeroDivision else .ok ((s.map fun p => env.fn name (env.cost p c) y).sum / s.length)) →
        Spec.ComparesCost name d → ∃ e, oneLoss env pred valid aux name = .error e := by
      intro d he hc
      cases hp : pred d with
      | none => exact ⟨_, by rw [he, hp]⟩
      | some s =>
        cases hv : validData valid aux "cost_matrix" with
        | none => exact ⟨.missingValidation "cost_matrix", by rw [he, hp]; simp only [hv]⟩
        | some c =>
          cases hv2 : validData valid aux "total_cost_by_origin" with
          | none => exact ⟨.missingValidation "total_cost_by_origin", by rw [he, hp]; simp only [hv, hv2]⟩
          | some y =>
            by_cases hs : s.length = 0
            · exact ⟨.zeroDivision, by rw [he, hp]; simp only [hv, hv2, hs, if_true]⟩
            · exact absurd ⟨d, hc, ⟨s, hp, fun h0 => hs (by rw [h0]; rfl)⟩, by rw [hv]; simp, by rw [hv2]; simp⟩ h.2
    have direct : ∀ n d o, lossReq n = some ⟨[d], [o]⟩ → n ∉ costLosses → oneLoss env pred valid aux n =
        match pred d with
        | none => .error (.missingPrediction d)
        | some s => match validData valid aux o with
          | none => .error (.missingValidation o)
          | some y => if s.length = 0 then .error .zeroDivision else .ok ((s.map fun p => env.fn n p y).sum / s.length) := by
      intro n d o hr hn
      unfold oneLoss
      rw [hr]
      cases hp : pred d with
      | none => simp [hp]
      | some s =>
        cases hv : validData valid aux o with
        | none => simp [hp, hv]
        | some y => simp [hp, hv, hn]
    have costly : ∀ n d, lossReq n = some ⟨[d], ["cost_matrix", "total_cost_by_origin"]⟩ → n ∈ costLosses → oneLoss env pred valid aux n =
        match pred d with
        | none => .error (.missingPrediction d)
        | some s => match validData valid aux "cost_matrix" with
          | none => .error (.missingValidation "cost_matrix")
          | some c => match validData valid aux "total_cost_by_origin" with
            | none => .error (.missingValidation "total_cost_by_origin")
            | some y => if s.length = 0 then .error .zeroDivision else .ok ((s.map fun p => env.fn n (env.cost p c) y).sum / s.length) := by
      intro n d hr hn
      unfold oneLoss
      rw [hr]
      cases hp : pred d with
      | none => simp [hp]
      | some s =>
        cases hv : validData valid aux "cost_matrix" with
        | none => simp [hp, hv]
        | some c =>
          cases hv2 : validData valid aux "total_cost_by_origin" with
          | none => simp [hp, hv, hv2]
          | some y => simp [hp, hv, hv2, hn]
    by_cases h1 : name = "dest_attraction_ts_loss"
    · subst h1; exact key _ _ (direct _ _ _ rfl (by decide)) .attraction
    by_cases h2 : name = "dest_attraction_ts_likelihood_loss"
    · subst h2; exact key _ _ (direct _ _ _ rfl (by decide)) .attractionL
    by_cases h3 : name = "table_loss"
    · subst h3; exact key _ _ (direct _ _ _ rfl (by decide)) .table
    by_cases h4 : name = "table_likelihood_loss"
    · subst h4; exact key _ _ (direct _ _ _ rfl (by decide)) .tableL
    by_cases h5 : name = "total_table_distance_loss"
    · subst h5; exact keyC _ (costly _ _ rfl (by decide)) .table
    by_cases h6 : name = "total_table_distance_likelihood_loss"
    · subst h6; exact keyC _ (costly _ _ rfl (by decide)) .tableL
    by_cases h7 : name = "total_intensity_distance_loss"
    · subst h7; exact keyC _ (costly _ _ rfl (by decide)) .intensity
    by_cases h8 : name = "total_intensity_distance_likelihood_loss"
    · subst h8; exact keyC _ (costly _ _ rfl (by decide)) .intensityL
    have hr : lossReq name = none := by
      unfold lossReq
      simp [h1, h2, h3, h4, h5, h6, h7, h8]
    exact ⟨.requirement, by unfold oneLoss; rw [hr]⟩

/-- **C160 (accumulation).** Every requested loss is increased once by its own mean and counted once, no other loss changes; the update raises exactly when
one of the requested losses does. -/
theorem C160_accumulate [Inhabited X] (env : LossEnv X K) (pred : String → Option (List X)) (valid aux : String → Option X) (names : List String)
    (hn : names.Nodup) (prev : String → K) (count : String → ℕ) :
    (∀ st, updateLosses env pred valid aux names (prev, count) = .ok st →
      (∀ n ∈ names, ∃ v, oneLoss env pred valid aux n = .ok v ∧ st.1 n = prev n + v ∧ st.2 n = count n + 1) ∧
        ∀ n ∉ names, st.1 n = prev n ∧ st.2 n = count n) ∧
      ((∃ st, updateLosses env pred valid aux names (prev, count) = .ok st) ↔ ∀ n ∈ names, ∃ v, oneLoss env pred valid aux n = .ok v) := by
  induction names generalizing prev count with
  | nil =>
    refine ⟨?_, by simp [updateLosses]⟩
    intro st h
    simp only [updateLosses, Except.ok.injEq] at h
    subst h
    simp
  | cons a r ih =>
    rw [List.nodup_cons] at hn
    rw [updateLosses]
    cases ho : oneLoss env pred valid aux a with
    | error e =>
      simp only
      refine ⟨by simp, ?_⟩
      simp [ho]
    | ok v =>
      simp only
      obtain ⟨i1, i2⟩ := ih hn.2 (Function.update prev a (prev a + v)) (Function.update count a (count a + 1))
      constructor
      · intro st h
        obtain ⟨j1, j2⟩ := i1 st h
        constructor
        · intro n hnm
          rcases List.mem_cons.1 hnm with rfl | hr
          · obtain ⟨k1, k2⟩ := j2 n hn.1
            exact ⟨v, ho, by rw [k1]; simp, by rw [k2]; simp⟩
          · obtain ⟨w, hw, k1, k2⟩ := j1 n hr
            have hne : n ≠ a := fun e => hn.1 (e ▸ hr)
            exact ⟨w, hw, by rw [k1]; simp [hne], by rw [k2]; simp [hne]⟩
        · intro n hnm
          rw [List.mem_cons, not_or] at hnm
          obtain ⟨k1, k2⟩ := j2 n hnm.2
          exact ⟨by rw [k1]; simp [hnm.1], by rw [k2]; simp [hnm.1]⟩
      · rw [i2]
        simp [ho]

/-- **C160 (order).** The losses after the update do not depend on the order in which the names are visited. -/
theorem C160_order [Inhabited X] (env : LossEnv X K) (pred : String → Option (List X)) (valid aux : String → Option X) (names names' : List String)
    (hn : names.Nodup) (hp : names.Perm names') (st0 st : (String → K) × (String → ℕ)) (h : updateLosses env pred valid aux names st0 = .ok st) :
    updateLosses env pred valid aux names' st0 = .ok st := by
  have hn' := hp.nodup_iff.1 hn
  obtain ⟨a1, a2⟩ := C160_accumulate env pred valid aux names hn st0.1 st0.2
  obtain ⟨b1, b2⟩ := C160_accumulate env pred valid aux names' hn' st0.1 st0.2
  obtain ⟨st', h'⟩ := b2.2 fun n hm => a2.1 ⟨st, h⟩ n (hp.mem_iff.2 hm)
  have e : st' = st := by
    obtain ⟨c1, c2⟩ := a1 st h
    obtain ⟨d1, d2⟩ := b1 st' h'
    refine Prod.ext (funext fun n => ?_) (funext fun n => ?_)
    · by_cases hm : n ∈ names
      · obtain ⟨v, hv, k, _⟩ := c1 n hm
        obtain ⟨w, hw, l, _⟩ := d1 n (hp.mem_iff.1 hm)
        rw [hv, Except.ok.injEq] at hw
        rw [k, l, hw]
      · rw [(c2 n hm).1, (d2 n fun x => hm (hp.mem_iff.2 x)).1]
    · by_cases hm : n ∈ names
      · obtain ⟨v, hv, _, k⟩ := c1 n hm
        obtain ⟨w, hw, _, l⟩ := d1 n (hp.mem_iff.1 hm)
        rw [k, l]
      · rw [(c2 n hm).2, (d2 n fun x => hm (hp.mem_iff.2 x)).2]
  rw [h', e]

/-! ### Tables and intensities -/

/-- The tensors of the losses on costs: a matrix, one row of a matrix, or one number per origin. -/
inductive Tens (n m : ℕ) (K : Type)
  | mat (a : Fin n → Fin m → K)
  | row (a : Fin m → K)
  | vec (a : Fin n → K)

instance {n m : ℕ} : Inhabited (Tens n m K) := ⟨.vec fun _ => 0⟩

/-- `torch.mul(prediction, cost_matrix).sum(dim=1)` divided by its sum (lines 486-491); a row is broadcast over the origins.  Other combinations of
shapes are not used. -/
def costByOrigin {n m : ℕ} : Tens n m K → Tens n m K → Tens n m K
  | .mat t, .mat c => .vec fun i => (∑ j, t i j * c i j) / ∑ i', ∑ j, t i' j * c i' j
  | .row t, .mat c => .vec fun i => (∑ j, t j * c i j) / ∑ i', ∑ j, t j * c i' j
  | p, _ => p

/-- Prediction data of `JointTableSIM_NN` (`experiments.py:2678-2684`): a list of tables, but the intensity is the matrix itself; its length is the number of
origins and its `n`-th element is the row of origin `n` (lines 446, 487). -/
def jointPredictions {n m : ℕ} (tables : List (Fin n → Fin m → K)) (intensity : Fin n → Fin m → K) : String → Option (List (Tens n m K)) := fun d =>
  if d = "table" then some (tables.map fun t => .mat t)
  else if d = "intensity" then some (List.ofFn fun i => .row (intensity i))
  else none

/-- The observed data: costs and observed normalised total cost by origin. -/
def costInputs {n m : ℕ} (cost : Fin n → Fin m → K) (obs : Fin n → K) : String → Option (Tens n m K) := fun d =>
  if d = "cost_matrix" then some (.mat cost) else if d = "total_cost_by_origin" then some (.vec obs) else none

/-- Share of each origin in the total cost of a table or intensity. -/
def Spec.costShare {n m : ℕ} (t cost : Fin n → Fin m → K) (i : Fin n) : K := (∑ j, t i j * cost i j) / ∑ i', ∑ j, t i' j * cost i' j

/-- **C160 (tables).** With the tables of a step as samples, the table distance loss is the mean over the tables of the loss between their cost shares and the observed ones. -/
theorem C160_table_distance {n m : ℕ} (fn : String → Tens n m K → Tens n m K → K) (tables : List (Fin n → Fin m → K)) (hne : tables ≠ [])
    (intensity cost : Fin n → Fin m → K) (obs : Fin n → K) :
    oneLoss ⟨fn, costByOrigin⟩ (jointPredictions tables intensity) (fun _ => none) (costInputs cost obs) "total_table_distance_loss" =
      .ok (Spec.meanOver tables fun t => fn "total_table_distance_loss" (.vec (Spec.costShare t cost)) (.vec obs)) := by
  rw [C160_cost_mean _ _ _ _ .table (tables.map fun t => .mat t) rfl (by simpa using hne) (.mat cost) (.vec obs) rfl rfl]
  unfold Spec.meanOver
  rw [List.map_map, List.length_map]
  rfl

/-- **C160 (intensities, what is computed).** The intensity loss of the joint experiment is the mean over the *origins* `k` of the loss of the matrix whose rows
are all the row of `k`. -/
theorem C160_intensity_rows {n m : ℕ} (fn : String → Tens (n + 1) m K → Tens (n + 1) m K → K) (tables : List (Fin (n + 1) → Fin m → K))
    (intensity cost : Fin (n + 1) → Fin m → K) (obs : Fin (n + 1) → K) :
    oneLoss ⟨fn, costByOrigin⟩ (jointPredictions tables intensity) (fun _ => none) (costInputs cost obs) "total_intensity_distance_loss" =
      .ok ((∑ k, fn "total_intensity_distance_loss" (.vec (Spec.costShare (fun _ => intensity k) cost)) (.vec obs)) / ((n + 1 : ℕ) : K)) := by
  rw [C160_cost_mean _ _ _ _ .intensity (List.ofFn fun i => .row (intensity i)) rfl (by simp) (.mat cost) (.vec obs) rfl rfl]
  unfold Spec.meanOver
  rw [List.map_ofFn, List.sum_ofFn, List.length_ofFn]
  rfl

/-- **C160 (intensities, consequence).** The intensity loss of the joint experiment does not depend on which origin has which flows: exchanging the rows of the
intensity leaves it unchanged. -/
theorem C160_intensity_exchanged {n m : ℕ} (fn : String → Tens (n + 1) m K → Tens (n + 1) m K → K) (tables : List (Fin (n + 1) → Fin m → K))
    (intensity cost : Fin (n + 1) → Fin m → K) (obs : Fin (n + 1) → K) (s : Equiv.Perm (Fin (n + 1))) :
    oneLoss ⟨fn, costByOrigin⟩ (jointPredictions tables fun i => intensity (s i)) (fun _ => none) (costInputs cost obs) "total_intensity_distance_loss" =
      oneLoss ⟨fn, costByOrigin⟩ (jointPredictions tables intensity) (fun _ => none) (costInputs cost obs) "total_intensity_distance_loss" := by
  rw [C160_intensity_rows, C160_intensity_rows]
  congr 2
  exact Equiv.sum_comp s fun k => fn "total_intensity_distance_loss" (.vec (Spec.costShare (fun _ => intensity k) cost)) (.vec obs)

/-- Mean squared error of two vectors. -/
def mseLoss {n m : ℕ} : String → Tens n m ℚ → Tens n m ℚ → ℚ
  | _, .vec a, .vec b => (∑ i, (a i - b i) ^ 2) / n
  | _, _, _ => 0

/-- **C160 is false of the intensity losses**: two origins, equal costs, an intensity with the observed shares (1/4 and 3/4): the loss is not zero. -/
theorem C160_intensity_false : ¬ ∀ (intensity cost : Fin 2 → Fin 2 → ℚ) (obs : Fin 2 → ℚ) (tables : List (Fin 2 → Fin 2 → ℚ)),
    oneLoss ⟨mseLoss, costByOrigin⟩ (jointPredictions tables intensity) (fun _ => none) (costInputs cost obs) "total_intensity_distance_loss" =
      .ok (mseLoss (n := 2) (m := 2) "" (.vec (Spec.costShare intensity cost)) (.vec obs)) := by
  intro h
  have h1 := h ![![1, 0], ![0, 3]] (fun _ _ => 1) ![1 / 4, 3 / 4] []
  rw [C160_intensity_rows (n := 1)] at h1
  simp only [Except.ok.injEq, mseLoss, Spec.costShare] at h1
  change (∑ k : Fin 2, _) / _ = _ at h1
  simp only [Fin.sum_univ_two, Matrix.cons_val_zero, Matrix.cons_val_one] at h1
  norm_num at h1

/-- With one table of the observed shares the table distance is zero. -/
example : oneLoss ⟨mseLoss, costByOrigin⟩ (jointPredictions [![![1, 0], ![0, 3]]] fun _ _ => 1) (fun _ => none)
    (costInputs (fun _ _ => 1) ![1 / 4, 3 / 4]) "total_table_distance_loss" = .ok (0 : ℚ) := by
  rw [C160_table_distance _ _ (by simp)]
  simp only [Spec.meanOver, List.map_cons, List.map_nil, List.sum_cons, List.sum_nil, mseLoss, Spec.costShare, Fin.sum_univ_two, Matrix.cons_val_zero, Matrix.cons_val_one]
  norm_num

example : oneLoss (X := ℚ) (K := ℚ) ⟨fun _ a b => (a - b) ^ 2, fun a _ => a⟩ (fun d => if d = "destination_attraction_ts" then some [1, 4] else none)
    (fun d => if d = "destination_attraction_ts" then some 2 else none) (fun _ => none) "dest_attraction_ts_loss" = .ok (5 / 2) := by
  rw [C160_mean _ _ _ _ .attraction [1, 4] rfl (by simp) 2 (.inl rfl)]
  norm_num [Spec.meanOver]

example : oneLoss (X := ℚ) (K := ℚ) ⟨fun _ a b => (a - b) ^ 2, fun a _ => a⟩ (fun _ => none) (fun _ => none) (fun _ => none) "total_loss" = .error .requirement := rfl

/-! ### The variance argument -/

/-- The keyword argument `var`: a number, or a tensor. -/
inductive VarArg (K : Type)
  | num (v : K)
  | tens (l : List K)

/-- `var*torch.ones(dim)` (`global_variables.py:112-118`, applied at every evaluation of the loss and stored back, lines 494-505, 517-528); `none`: shapes that do not broadcast. -/
def widenVar (dim : ℕ) : VarArg K → Option (VarArg K)
  | .num v => some (.tens (List.replicate dim v))
  | .tens l =>
    if l.length = dim then some (.tens l)
    else match l with
      | [v] => some (.tens (List.replicate dim v))
      | _ => if dim = 1 then some (.tens l) else none

/-- The argument after a number of evaluations. -/
def widenTimes (dim : ℕ) : ℕ → VarArg K → Option (VarArg K)
  | 0, v => some v
  | k + 1, v => match widenVar dim v with
    | some w => widenTimes dim k w
    | none => none

/-- **C160 (variance).** However often the loss is evaluated, the variance it uses is the configured number for every observed value. -/
theorem C160_variance (dim : ℕ) (v : K) (k : ℕ) : widenTimes dim (k + 1) (.num v) = some (.tens (List.replicate dim v)) := by
  rw [widenTimes, widenVar]
  simp only
  induction k with
  | zero => rfl
  | succ k ih =>
    have e : widenVar dim (.tens (List.replicate dim v)) = some (.tens (List.replicate dim v)) := by
      simp only [widenVar]
      rw [if_pos List.length_replicate]
    rw [widenTimes, e]
    exact ih

/-- **C160 (variance given as a tensor).** A tensor with one value is used for every observed value, one with a value per observed value is used as it is, and (with more than
one observed value) every other one raises; a second evaluation changes nothing. -/
theorem C160_variance_tensor (dim : ℕ) (l : List K) (k : ℕ) :
    (∀ v, l = [v] → widenTimes dim (k + 1) (.tens l) = some (.tens (List.replicate dim v))) ∧
    (l.length = dim → widenTimes dim (k + 1) (.tens l) = some (.tens l)) ∧
    (dim ≠ 1 → l.length ≠ 1 → l.length ≠ dim → widenTimes dim (k + 1) (.tens l) = none) := by
  have fixed : ∀ (k : ℕ) (l : List K), l.length = dim → widenTimes dim k (.tens l) = some (.tens l) := by
    intro k
    induction k with
    | zero => exact fun l _ => rfl
    | succ k ih =>
      intro l hl
      have e : widenVar dim (.tens l) = some (.tens l) := by
        simp only [widenVar]
        rw [if_pos hl]
      rw [widenTimes, e]
      exact ih l hl
  refine ⟨?_, fixed _ _, ?_⟩
  · rintro v rfl
    have e : widenVar dim (.tens [v]) = some (.tens (List.replicate dim v)) := by
      simp only [widenVar]
      split
      · rename_i h
        rw [← h]; rfl
      · rfl
    rw [widenTimes, e]
    exact fixed _ _ List.length_replicate
  · intro h1 h2 h3
    have e : widenVar dim (.tens l) = none := by
      simp only [widenVar]
      rw [if_neg h3]
      match l, h2 with
      | [], _ => simp [h1]
      | _ :: _ :: _, _ => simp [h1]
    rw [widenTimes, e]

example : widenTimes 3 2 (.tens [(7 : ℚ)]) = some (.tens [7, 7, 7]) := rfl

end GeNSIT
