import Verif.NN.Loss
import Mathlib.Analysis.Calculus.FDeriv.Add
import Mathlib.Analysis.Calculus.FDeriv.Const
import Mathlib.Analysis.Calculus.Deriv.Basic
import Mathlib.Analysis.Calculus.Deriv.Pow
import Mathlib.Analysis.Calculus.Deriv.Mul
import Mathlib.Analysis.Calculus.Deriv.Add
import Mathlib.Analysis.Calculus.FDeriv.Mul

/-!
# C161: what the configured losses teach the network

Model of an epoch of `JointTableSIM_NN.run` (`gensit/experiments.py:2611-2711`) together with `model_update_and_export` (`gensit/experiments.py:653-701`)
and the loss update of C160.  The training data has one element (`torch.unsqueeze(…, 0)`), so an epoch is one gradient step.

Automatic differentiation is modelled by its contract: the gradient left in the weights is the derivative of the loss with everything that is not computed
from the weights by differentiable operations held constant; weights to which no path leads keep the gradient `None`, and the optimiser skips them.  Sampled tables are such
constants: they are drawn (`ct_mcmc.table_gibbs_step`), not computed.  Single precision is not modelled.
-/

set_option linter.unusedSectionVars false

namespace GeNSIT

open scoped BigOperators

variable {E S X ω : Type} [NormedAddCommGroup E] [NormedSpace ℝ E] [Inhabited X]

/-- The differentiable part of the joint experiment: attractions after the SDE step, log intensity (normalised) and the intensity as handed to the losses,
as functions of the weights; the observed attractions and the stored inputs (`experiments.py:2640-2684`). -/
structure JointNet (E X : Type) where
  env : LossEnv X ℝ
  attraction : E → X
  logIntensity : E → X
  intensity : E → List X
  observed : X
  aux : String → Option X

/-- `prediction_data` (lines 2678-2682), with the tables given. -/
def JointNet.pred (net : JointNet E X) (w : E) (tables : List X) : String → Option (List X) := fun d =>
  if d = "destination_attraction_ts" then some [net.attraction w]
  else if d = "intensity" then some (net.intensity w)
  else if d = "table" then some tables
  else none

/-- `validation_data` (lines 2674-2677). -/
def JointNet.valid (net : JointNet E X) (w : E) : String → Option X := fun d =>
  if d = "destination_attraction_ts" then some net.observed
  else if d = "log_intensity" then some (net.logIntensity w)
  else none

/-- The value of a loss at weights `w` with the tables held fixed (zero if it raises). -/
noncomputable def JointNet.held (net : JointNet E X) (tables : List X) (name : String) (w : E) : ℝ :=
  match oneLoss net.env (net.pred w tables) (net.valid w) net.aux name with
  | .ok v => v
  | .error _ => 0

/-- Whether a path of differentiable operations leads from the weights to a loss: it uses the predicted attractions or intensity, or is compared with the log intensity. -/
def trackedLoss (name : String) : Bool :=
  match lossReq name with
  | none => false
  | some r => r.pred.any (fun d => d == "destination_attraction_ts" || d == "intensity") || r.valid.any (· == "log_intensity")

/-- State between epochs: the weights, the state of the optimiser and the last table. -/
structure NetState (E S X : Type) where
  w : E
  opt : S
  table : X

/-- One epoch (`experiments.py:2611-2711`, `653-701`): `draw` samples the tables of the epoch from the last one at the current intensity (at least one; only the last is kept),
`optim` is the optimiser step for weights that have a gradient. -/
noncomputable def jointEpoch (net : JointNet E X) (draw : ω → X → X → List X) (optim : (E →L[ℝ] ℝ) → E × S → E × S) (names : List String)
    (st : NetState E S X) (d : ω) : Except LossErr (NetState E S X) :=
  let tables := draw d st.table (net.logIntensity st.w)
  match updateLosses net.env (net.pred st.w tables) (net.valid st.w) net.aux names ((fun _ => 0), fun _ => 0) with
  | .error e => .error e
  | .ok _ =>
    let last := tables.getLastD st.table
    match names.filter trackedLoss with
    -- the initial zeros require a gradient, so `backward` runs, but no gradient reaches the weights
    | [] => .ok ⟨st.w, st.opt, last⟩
    | tr =>
      let r := optim (tr.map fun n => fderiv ℝ (net.held tables n) st.w).sum (st.w, st.opt)
      .ok ⟨r.1, r.2, last⟩

/-- All epochs (line 2611), with the draws of each. -/
noncomputable def jointTrain (net : JointNet E X) (draw : ω → X → X → List X) (optim : (E →L[ℝ] ℝ) → E × S → E × S) (names : List String) :
    List ω → NetState E S X → Except LossErr (NetState E S X)
  | [], st => .ok st
  | d :: ds, st =>
    match jointEpoch net draw optim names st d with
    | .error e => .error e
    | .ok st' => jointTrain net draw optim names ds st'

/-! ### Specification -/

/-- The losses on the costs of sampled tables. -/
def Spec.tableDistance (name : String) : Prop := name = "total_table_distance_loss" ∨ name = "total_table_distance_likelihood_loss"

instance : DecidablePred Spec.tableDistance := fun _ => inferInstanceAs (Decidable (_ ∨ _))

/-! ### Theorems -/

theorem trackedLoss_tableDistance {name : String} (h : Spec.tableDistance name) : trackedLoss name = false := by
  rcases h with rfl | rfl <;> rfl

theorem lossReq_none {name : String} (h : lossReq name = none) : trackedLoss name = false := by
  unfold trackedLoss
  rw [h]

theorem untracked_cases {name : String} (h : trackedLoss name = false) : lossReq name = none ∨ Spec.tableDistance name := by
  unfold trackedLoss lossReq at *
  unfold Spec.tableDistance
  split at h
  · rename_i hh
    exact .inl hh
  · rename_i r hh
    split at hh
    · cases hh; simp at h
    split at hh
    · cases hh; simp at h
    split at hh
    · rename_i h3
      exact .inr (by simpa using h3)
    split at hh
    · cases hh; simp at h
    · cases hh

/-- A loss without a path from the weights does not depend on them once the tables are held. -/
theorem held_untracked (net : JointNet E X) (tables : List X) {name : String} (h : trackedLoss name = false) (w w' : E) :
    net.held tables name w = net.held tables name w' := by
  rcases untracked_cases h with h | rfl | rfl
  · simp only [JointNet.held, oneLoss, h]
  · rfl
  · rfl

/-- **C161 (gradient).** The gradient the optimiser gets is the derivative, at the current weights and with the sampled tables held constant, of the sum of *all* configured losses:
the losses it has no path to are constant. -/
theorem C161_gradient (net : JointNet E X) (tables : List X) (names : List String) (w : E)
    (hd : ∀ n ∈ names, DifferentiableAt ℝ (net.held tables n) w) :
    ((names.filter trackedLoss).map fun n => fderiv ℝ (net.held tables n) w).sum = fderiv ℝ (fun w' => (names.map fun n => net.held tables n w').sum) w := by
  induction names with
  | nil =>
    simp
  | cons a r ih =>
    have hr := ih fun n hn => hd n (List.mem_cons_of_mem _ hn)
    have hda := hd a List.mem_cons_self
    have hdr : DifferentiableAt ℝ (fun w' => (r.map fun n => net.held tables n w').sum) w := by
      clear hr ih hda
      induction r with
      | nil => simp
      | cons b s ih =>
        simp only [List.map_cons, List.sum_cons]
        exact (hd b (by simp)).fun_add (ih fun n hn => hd n (by
          rcases List.mem_cons.1 hn with h | h
          · simp [h]
          · simp [h]))
    simp only [List.map_cons, List.sum_cons]
    rw [fderiv_fun_add hda hdr, ← hr]
    cases ht : trackedLoss a with
    | true => rw [List.filter_cons_of_pos ht, List.map_cons, List.sum_cons]
    | false =>
      rw [List.filter_cons_of_neg (by simp [ht])]
      have : net.held tables a = fun _ => net.held tables a w := funext fun w' => held_untracked net tables ht w' w
      rw [this, fderiv_fun_const]
      simp

theorem updateLosses_filter {K : Type} [_root_.Field K] (env : LossEnv X K) (pred : String → Option (List X)) (valid aux : String → Option X) (p : String → Bool)
    (names : List String) (s0 s1 : (String → K) × (String → ℕ)) (st : (String → K) × (String → ℕ)) (h : updateLosses env pred valid aux names s0 = .ok st) :
    ∃ st', updateLosses env pred valid aux (names.filter p) s1 = .ok st' := by
  induction names generalizing s0 s1 with
  | nil => exact ⟨s1, rfl⟩
  | cons a r ih =>
    rw [updateLosses] at h
    cases ho : oneLoss env pred valid aux a with
    | error e => rw [ho] at h; simp at h
    | ok v =>
      rw [ho] at h
      simp only at h
      cases hp : p a with
      | false =>
        rw [List.filter_cons_of_neg (by simp [hp])]
        exact ih _ _ h
      | true =>
        rw [List.filter_cons_of_pos hp, updateLosses, ho]
        exact ih _ _ h

/-- **C161 (table distances are ignored).** Training with the table distance losses among the configured ones gives, after any number of epochs and whatever is drawn, the weights,
the optimiser and the tables of training without them. -/
theorem C161_table_distance_ignored (net : JointNet E X) (draw : ω → X → X → List X) (optim : (E →L[ℝ] ℝ) → E × S → E × S) (names : List String)
    (ds : List ω) (st st' : NetState E S X) (h : jointTrain net draw optim names ds st = .ok st') :
    jointTrain net draw optim (names.filter fun n => ¬ Spec.tableDistance n) ds st = .ok st' := by
  induction ds generalizing st with
  | nil => exact h
  | cons d ds ih =>
    rw [jointTrain] at h ⊢
    have e : jointEpoch net draw optim names st d = jointEpoch net draw optim (names.filter fun n => ¬ Spec.tableDistance n) st d ∨
        ∃ x, jointEpoch net draw optim names st d = .error x := by
      unfold jointEpoch
      simp only
      cases hu : updateLosses net.env (net.pred st.w (draw d st.table (net.logIntensity st.w))) (net.valid st.w) net.aux names ((fun _ => 0), fun _ => 0) with
      | error x => exact .inr ⟨x, rfl⟩
      | ok v =>
        left
        obtain ⟨v', hv'⟩ := updateLosses_filter net.env _ _ _ (fun n => ¬ Spec.tableDistance n) names _ ((fun _ => 0), fun _ => 0) v hu
        rw [hv']
        have hf : (names.filter fun n => ¬ Spec.tableDistance n).filter trackedLoss = names.filter trackedLoss := by
          rw [List.filter_filter]
          refine List.filter_congr fun n _ => ?_
          by_cases ht : Spec.tableDistance n
          · rw [trackedLoss_tableDistance ht]; rfl
          · simp [ht]
        rw [hf]
    rcases e with e | ⟨x, e⟩
    · rw [← e]
      cases hj : jointEpoch net draw optim names st d with
      | error x => rw [hj] at h; simp at h
      | ok s => rw [hj] at h; exact ih s h
    · rw [e] at h
      simp at h

/-- **C161 (nothing is learned).** With only table distance losses configured the weights never change. -/
theorem C161_no_learning (net : JointNet E X) (draw : ω → X → X → List X) (optim : (E →L[ℝ] ℝ) → E × S → E × S) (names : List String)
    (hn : ∀ n ∈ names, Spec.tableDistance n) (ds : List ω) (st st' : NetState E S X) (h : jointTrain net draw optim names ds st = .ok st') :
    st'.w = st.w ∧ st'.opt = st.opt := by
  induction ds generalizing st with
  | nil =>
    rw [jointTrain, Except.ok.injEq] at h
    subst h
    exact ⟨rfl, rfl⟩
  | cons d ds ih =>
    rw [jointTrain] at h
    have hf : names.filter trackedLoss = [] := by
      rw [List.filter_eq_nil_iff]
      intro n hm
      rw [trackedLoss_tableDistance (hn n hm)]
      simp
    cases hj : jointEpoch net draw optim names st d with
    | error x => rw [hj] at h; simp at h
    | ok s =>
      rw [hj] at h
      have := ih s h
      unfold jointEpoch at hj
      simp only [hf] at hj
      cases hu : updateLosses net.env (net.pred st.w (draw d st.table (net.logIntensity st.w))) (net.valid st.w) net.aux names ((fun _ => 0), fun _ => 0) with
      | error x => rw [hu] at hj; simp at hj
      | ok v =>
        rw [hu] at hj
        simp only [Except.ok.injEq] at hj
        subst hj
        exact this

/-- **C161 (the others do).** With a single loss on attractions, tables or intensities the epoch is one step of the optimiser along the derivative of that loss at the drawn tables. -/
theorem C161_single_partial (net : JointNet E X) (draw : ω → X → X → List X) (optim : (E →L[ℝ] ℝ) → E × S → E × S) (name : String)
    (hk : (∃ d o, Spec.Compares name d o) ∨ (Spec.ComparesCost name "intensity")) (st st' : NetState E S X) (d : ω)
    (h : jointEpoch net draw optim [name] st d = .ok st') :
    (st'.w, st'.opt) = optim (fderiv ℝ (net.held (draw d st.table (net.logIntensity st.w)) name) st.w) (st.w, st.opt) := by
  have ht : trackedLoss name = true := by
    rcases hk with ⟨a, b, hc⟩ | hc
    · cases hc <;> rfl
    · generalize hi : "intensity" = d' at hc
      cases hc
      · simp at hi
      · simp at hi
      · rfl
      · rfl
  unfold jointEpoch at h
  simp only at h
  cases hu : updateLosses net.env (net.pred st.w (draw d st.table (net.logIntensity st.w))) (net.valid st.w) net.aux [name] ((fun _ => 0), fun _ => 0) with
  | error x => rw [hu] at h; simp at h
  | ok v =>
    rw [hu] at h
    rw [show [name].filter trackedLoss = [name] from List.filter_cons_of_pos (l := []) ht] at h
    simp only [List.map_cons, List.map_nil, List.sum_cons, List.sum_nil, add_zero, Except.ok.injEq] at h
    subst h
    rfl

/-- **C161 (what is compared).** The loss on the attractions is between the attractions the current weights give and the observed ones; the loss on the tables is the mean, over the
drawn tables, of the loss between the table and the log intensity the current weights give. -/
theorem C161_compared (net : JointNet E X) (tables : List X) (w : E) :
    net.held tables "dest_attraction_ts_loss" w = net.env.fn "dest_attraction_ts_loss" (net.attraction w) net.observed ∧
    (tables ≠ [] → net.held tables "table_likelihood_loss" w = Spec.meanOver tables fun t => net.env.fn "table_likelihood_loss" t (net.logIntensity w)) := by
  constructor
  · have h := C160_mean net.env (net.pred w tables) (net.valid w) net.aux .attraction [net.attraction w] rfl (by simp) net.observed (.inl rfl)
    unfold JointNet.held
    rw [h]
    simp [Spec.meanOver]
  · intro hne
    have h := C160_mean net.env (net.pred w tables) (net.valid w) net.aux .tableL tables rfl hne (net.logIntensity w) (.inl rfl)
    unfold JointNet.held
    rw [h]

/-- **C161 (tables).** The next epoch starts from the last table drawn (from the previous one at the log intensity of the weights before the step), and an epoch that draws
none keeps the one it had. -/
theorem C161_last_table (net : JointNet E X) (draw : ω → X → X → List X) (optim : (E →L[ℝ] ℝ) → E × S → E × S) (names : List String)
    (st st' : NetState E S X) (d : ω) (h : jointEpoch net draw optim names st d = .ok st') :
    (∀ pre t, draw d st.table (net.logIntensity st.w) = pre ++ [t] → st'.table = t) ∧
    (draw d st.table (net.logIntensity st.w) = [] → st'.table = st.table) := by
  have e : st'.table = (draw d st.table (net.logIntensity st.w)).getLastD st.table := by
    unfold jointEpoch at h
    simp only at h
    cases hu : updateLosses net.env (net.pred st.w (draw d st.table (net.logIntensity st.w))) (net.valid st.w) net.aux names ((fun _ => 0), fun _ => 0) with
    | error x => rw [hu] at h; simp at h
    | ok v =>
      rw [hu] at h
      cases hf : names.filter trackedLoss with
      | nil =>
        simp only [hf, Except.ok.injEq] at h
        subst h
        rfl
      | cons a r =>
        simp only [hf, Except.ok.injEq] at h
        subst h
        rfl
  constructor
  · intro pre t ht
    rw [e, ht]
    simp
  · intro h0
    rw [e, h0]
    rfl

/-! ### A network whose expected loss does depend on the weights -/

/-- One trip between two origins with one destination each, unit costs; the trip starts at the first origin with probability `w`.  The loss is the first origin's squared distance
from the observed share. -/
noncomputable def coinNet : JointNet ℝ (Tens 2 1 ℝ) where
  env := ⟨fun _ a b => match a, b with
    | .vec x, .vec y => (x 0 - y 0) ^ 2
    | _, _ => 0, costByOrigin⟩
  attraction := fun w => .vec fun _ => w
  logIntensity := fun w => .vec fun _ => w
  intensity := fun w => [.mat fun i _ => if i = 0 then w else 1 - w]
  observed := .vec fun _ => 1
  aux := costInputs (fun _ _ => 1) ![1, 0]

/-- The table with its trip at the first origin, or at the second. -/
def coinTable (b : Bool) : Tens 2 1 ℝ := .mat fun i _ => if (i = 0) = (b = true) then 1 else 0

theorem coin_held (b : Bool) (w : ℝ) : coinNet.held [coinTable b] "total_table_distance_loss" w = if b then 0 else 1 := by
  have h := C160_cost_mean coinNet.env (coinNet.pred w [coinTable b]) (coinNet.valid w) coinNet.aux .table [coinTable b] rfl (by simp)
    (.mat fun _ _ => 1) (.vec ![1, 0]) rfl rfl
  unfold JointNet.held
  rw [h]
  cases b <;> simp [Spec.meanOver, coinNet, coinTable, costByOrigin, Fin.sum_univ_two]

/-- **C161 is false of the table distance losses**: the expected loss at the drawn table decreases in the weight (its derivative is `-1`), but the weight is never
updated. -/
theorem C161_false : ¬ ∀ (net : JointNet ℝ (Tens 2 1 ℝ)) (prob : ℝ → ℝ) (w g : ℝ),
    HasDerivAt (fun v => prob v * net.held [coinTable true] "total_table_distance_loss" v + (1 - prob v) * net.held [coinTable false] "total_table_distance_loss" v) g w →
    g ≠ 0 →
    ∃ b st', jointEpoch (S := Unit) net (fun (d : Bool) _ _ => [coinTable d]) (fun G s => (s.1 - G 1, s.2)) ["total_table_distance_loss"] ⟨w, (), coinTable true⟩ b = .ok st' ∧
      st'.w ≠ w := by
  intro h
  have h1 : HasDerivAt (fun v : ℝ => v * coinNet.held [coinTable true] "total_table_distance_loss" v + (1 - v) * coinNet.held [coinTable false] "total_table_distance_loss" v) (-1) (1 / 2) := by
    simp only [coin_held]
    simpa using (hasDerivAt_id (1 / 2 : ℝ)).const_sub 1
  obtain ⟨b, st', he, hw⟩ := h coinNet (fun v => v) (1 / 2) (-1) h1 (by norm_num)
  refine hw (C161_no_learning coinNet (fun (d : Bool) _ _ => [coinTable d]) (fun G s => (s.1 - G 1, s.2)) ["total_table_distance_loss"] (by simp [Spec.tableDistance])
    [b] ⟨1 / 2, (), coinTable true⟩ st' ?_).1
  rw [jointTrain, he]
  rfl

/-- The epoch of this network does not raise. -/
example (b : Bool) : ∃ st', jointEpoch (S := Unit) coinNet (fun (d : Bool) _ _ => [coinTable d]) (fun G s => (s.1 - G 1, s.2)) ["total_table_distance_loss"]
    ⟨1 / 2, (), coinTable true⟩ b = .ok st' ∧ st'.w = 1 / 2 :=
  ⟨_, rfl, rfl⟩

/-- With a loss on the attractions the same network does learn. -/
example : ∃ st', jointEpoch (S := Unit) coinNet (fun (d : Bool) _ _ => [coinTable d]) (fun G s => (s.1 - G 1, s.2)) ["dest_attraction_ts_loss", "total_table_distance_loss"]
    ⟨1 / 2, (), coinTable true⟩ true = .ok st' ∧ st'.w = 3 / 2 := by
  refine ⟨_, rfl, ?_⟩
  change 1 / 2 - ((([("dest_attraction_ts_loss" : String)]).map fun n => fderiv ℝ (coinNet.held [coinTable true] n) (1 / 2)).sum) 1 = 3 / 2
  have hh : coinNet.held [coinTable true] "dest_attraction_ts_loss" = fun w : ℝ => (w - 1) ^ 2 := by
    funext w
    have h := C160_mean coinNet.env (coinNet.pred w [coinTable true]) (coinNet.valid w) coinNet.aux .attraction [.vec fun _ => w] rfl (by simp)
      (.vec fun _ => 1) (.inl rfl)
    unfold JointNet.held
    rw [h]
    simp [Spec.meanOver, coinNet]
  have hd : HasDerivAt (fun w : ℝ => (w - 1) ^ 2) (-1) (1 / 2) := by
    have := ((hasDerivAt_id (1 / 2 : ℝ)).sub_const 1).pow 2
    refine this.congr_deriv ?_
    norm_num
  simp only [List.map_cons, List.map_nil, List.sum_cons, List.sum_nil, add_zero, hh, fderiv_eq_smul_deriv, hd.deriv]
  norm_num

end GeNSIT
