import Mathlib.Analysis.SpecialFunctions.Sqrt
import Mathlib.Algebra.BigOperators.Group.Finset.Basic
import Mathlib.Algebra.Order.BigOperators.Group.Finset
import Mathlib.Tactic.Ring
import Mathlib.Tactic.FieldSimp
import Mathlib.Tactic.Linarith

/-!
# The loss of the graph attention network (`gensit/learning_models/GraphAttentionNetwork.py:189-268`) (C136)

`n` predictions come from a layer with one output, so they have shape `(n, 1)`; the targets have shape `(n,)` (trips) and `(n, 2)` (flows). The
difference of the two has shape `(n, n)` and `(n, 2)`.
-/

namespace GeNSIT

open Finset

/-- `MSE(y_hat, y)` with `y_hat` of shape `(n, 1)` and `y` of shape `(n,)` (`GraphAttentionNetwork.py:234-245`): below the limit the mean of all
entries of the difference, else the sum over the square blocks divided by `n`. -/
noncomputable def tripMSE (limit n : ℕ) (yhat y : ℕ → ℝ) : ℝ :=
  if n < limit then (∑ i ∈ range n, ∑ j ∈ range n, (yhat i - y j) ^ 2) / (n * n)
  else (∑ i ∈ range n, ∑ j ∈ (range n).filter (fun j => j / limit = i / limit), (yhat i - y j) ^ 2) / n

/-- `MSE(y_hat, y)` with `y_hat` of shape `(n, 1)` and `y` of shape `(n, 2)`: below the limit the mean of the `2 n` entries, else their sum divided
by `n`. -/
noncomputable def flowMSE (limit n : ℕ) (yhat : ℕ → ℝ) (y : ℕ → ℝ × ℝ) : ℝ :=
  if n < limit then (∑ i ∈ range n, ((yhat i - (y i).1) ^ 2 + (yhat i - (y i).2) ^ 2)) / (n * 2)
  else (∑ i ∈ range n, ((yhat i - (y i).1) ^ 2 + (yhat i - (y i).2) ^ 2)) / n

/-- The flows given to the network (`gensit/experiments.py:3497-3504`): number of the region and its total over the whole table; the square root is
taken of both (`GraphAttentionNetwork.py:207-208`). -/
noncomputable def scaledFlow (total : ℕ → ℝ) (k : ℕ) : ℝ × ℝ := (Real.sqrt k, Real.sqrt (total k))

/-- The inflow of a destination (`experiments.py:3499`): the sum over all origins, whether the cells are training cells or not. -/
def inflow (I : ℕ) (table : ℕ → ℕ → ℝ) (j : ℕ) : ℝ := ∑ i ∈ range I, table i j

/-- The outflow of an origin (`experiments.py:3503`). -/
def outflow (J : ℕ) (table : ℕ → ℕ → ℝ) (i : ℕ) : ℝ := ∑ j ∈ range J, table i j

/-- A batch: the trips as cells with counts, the destinations and origins that occur (sorted, without repetition), and what the network predicts for
trips, inflows and outflows; the mean squares of the embeddings. -/
structure GatBatch where
  n : ℕ
  cell : ℕ → ℕ × ℕ
  count : ℕ → ℝ
  nIn : ℕ
  inNode : ℕ → ℕ
  nOut : ℕ
  outNode : ℕ → ℕ

/-- The predictions of the network for a batch. -/
structure GatPrediction where
  edge : ℕ → ℝ
  inflow : ℕ → ℝ
  outflow : ℕ → ℝ
  regOrigin : ℝ
  regDestination : ℝ

/-- `get_loss` (`GraphAttentionNetwork.py:189-231`). -/
noncomputable def gatLoss (limit : ℕ) (w0 w1 w2 reg : ℝ) (I J : ℕ) (table : ℕ → ℕ → ℝ) (b : GatBatch) (p : GatPrediction) : ℝ :=
  w0 * tripMSE limit b.n p.edge (fun k => Real.sqrt (b.count k)) +
    w1 * flowMSE limit b.nIn p.inflow (fun k => scaledFlow (inflow I table) (b.inNode k)) +
    w2 * flowMSE limit b.nOut p.outflow (fun k => scaledFlow (outflow J table) (b.outNode k)) +
    reg * (0.5 * (p.regOrigin + p.regDestination))

/-! ## Specification -/

/-- The mean of `n` values. -/
noncomputable def Spec.meanR (n : ℕ) (y : ℕ → ℝ) : ℝ := (∑ i ∈ range n, y i) / n

/-- The mean squared error of predictions for targets. -/
noncomputable def Spec.mse (n : ℕ) (yhat y : ℕ → ℝ) : ℝ := (∑ i ∈ range n, (yhat i - y i) ^ 2) / n

/-- A loss is smallest at `yhat`. -/
def Spec.Minimises (loss : (ℕ → ℝ) → ℝ) (yhat : ℕ → ℝ) : Prop := ∀ yhat', loss yhat ≤ loss yhat'

/-! ## C136 -/

theorem sum_sq_decomp (n : ℕ) (hn : 0 < n) (y : ℕ → ℝ) (a : ℝ) :
    ∑ j ∈ range n, (a - y j) ^ 2 = n * (a - Spec.meanR n y) ^ 2 + ∑ j ∈ range n, (y j - Spec.meanR n y) ^ 2 := by
  have hne : (n : ℝ) ≠ 0 := by exact_mod_cast hn.ne'
  have hsum : ∑ j ∈ range n, y j = n * Spec.meanR n y := by unfold Spec.meanR; field_simp
  have e1 : ∑ j ∈ range n, (a - y j) ^ 2 = n * a ^ 2 - 2 * a * ∑ j ∈ range n, y j + ∑ j ∈ range n, y j ^ 2 := by
    have : ∀ j ∈ range n, (a - y j) ^ 2 = a ^ 2 - 2 * a * y j + y j ^ 2 := fun j _ => by ring
    rw [sum_congr rfl this, sum_add_distrib, sum_sub_distrib, ← mul_sum, sum_const, card_range]
    simp
  have e2 : ∑ j ∈ range n, (y j - Spec.meanR n y) ^ 2 =
      ∑ j ∈ range n, y j ^ 2 - 2 * Spec.meanR n y * ∑ j ∈ range n, y j + n * Spec.meanR n y ^ 2 := by
    have : ∀ j ∈ range n, (y j - Spec.meanR n y) ^ 2 = y j ^ 2 - 2 * Spec.meanR n y * y j + Spec.meanR n y ^ 2 := fun j _ => by ring
    rw [sum_congr rfl this, sum_add_distrib, sum_sub_distrib, ← mul_sum, sum_const, card_range]
    simp
  rw [e1, e2, hsum]
  ring

/-- C136: what the loss for the trips is: the mean squared distance of the predictions from the mean of all targets, plus the variance of the
targets. -/
theorem C136_edge_loss (limit n : ℕ) (hn : 0 < n) (hl : n < limit) (yhat y : ℕ → ℝ) :
    tripMSE limit n yhat y = Spec.mse n yhat (fun _ => Spec.meanR n y) + Spec.mse n y (fun _ => Spec.meanR n y) := by
  have hne : (n : ℝ) ≠ 0 := by exact_mod_cast hn.ne'
  unfold tripMSE
  rw [if_pos hl, sum_congr rfl fun i _ => sum_sq_decomp n hn y (yhat i), sum_add_distrib, ← mul_sum, sum_const, card_range]
  unfold Spec.mse
  rw [nsmul_eq_mul]
  field_simp

/-- C136: so it is smallest exactly if every prediction is the mean of all targets: training makes the network predict the same for all cells. -/
theorem C136_edge_minimiser (limit n : ℕ) (hn : 0 < n) (hl : n < limit) (yhat y : ℕ → ℝ) :
    Spec.Minimises (fun f => tripMSE limit n f y) yhat ↔ ∀ i < n, yhat i = Spec.meanR n y := by
  have hpos : (0 : ℝ) < n := by exact_mod_cast hn
  constructor
  · intro h i hi
    have := h fun _ => Spec.meanR n y
    simp only [C136_edge_loss limit n hn hl] at this
    have h0 : Spec.mse n (fun _ => Spec.meanR n y) (fun _ => Spec.meanR n y) = 0 := by simp [Spec.mse]
    rw [h0] at this
    have h1 : Spec.mse n yhat (fun _ => Spec.meanR n y) ≤ 0 := by linarith
    unfold Spec.mse at h1
    have h2 : ∑ i ∈ range n, (yhat i - Spec.meanR n y) ^ 2 ≤ 0 := by
      by_contra hc
      push Not at hc
      have := div_pos hc hpos
      linarith
    have h3 := (sum_eq_zero_iff_of_nonneg fun i _ => sq_nonneg (yhat i - Spec.meanR n y)).1
      (le_antisymm h2 (sum_nonneg fun i _ => sq_nonneg _)) i (mem_range.2 hi)
    have := pow_eq_zero_iff (two_ne_zero) |>.1 h3
    linarith
  · intro h f
    simp only [C136_edge_loss limit n hn hl]
    have h0 : Spec.mse n yhat (fun _ => Spec.meanR n y) = 0 := by
      unfold Spec.mse
      rw [sum_eq_zero fun i hi => by rw [h i (mem_range.1 hi)]; ring]
      simp
    have h1 : 0 ≤ Spec.mse n f (fun _ => Spec.meanR n y) := div_nonneg (sum_nonneg fun i _ => sq_nonneg _) hpos.le
    linarith

example : Spec.Minimises (fun f => tripMSE 20000 2 f (fun i => 2 * i)) (fun _ => 1) :=
  (C136_edge_minimiser 20000 2 (by norm_num) (by norm_num) _ _).2 (by intro i _; norm_num [Spec.meanR, sum_range_succ])

/-- C136: the loss does not depend on which count belongs to which cell. -/
theorem C136_edge_shuffled (limit n : ℕ) (hl : n < limit) (yhat y : ℕ → ℝ) (σ : Equiv.Perm ℕ) (hσ : ∀ i, i < n ↔ σ i < n) :
    tripMSE limit n yhat (y ∘ σ) = tripMSE limit n yhat y := by
  unfold tripMSE
  rw [if_pos hl, if_pos hl]
  congr 1
  apply sum_congr rfl
  intro i _
  exact sum_equiv σ (by intro j; simpa using hσ j) (by intro j _; rfl)

example : ∀ i, i < 2 ↔ Equiv.swap 0 1 i < 2 := by
  intro i
  rcases i with _ | _ | i
  · simp
  · simp
  · rw [Equiv.swap_apply_of_ne_of_ne (by omega) (by omega)]

/-- C136: correct predictions do not make the loss smallest. -/
theorem C136_edge_false : ¬ ∀ (n : ℕ) (y : ℕ → ℝ), 0 < n → n < 20000 → Spec.Minimises (fun f => tripMSE 20000 n f y) y := by
  intro h
  have h1 := (C136_edge_minimiser 20000 2 (by norm_num) (by norm_num) _ _).1 (h 2 (fun i => i) (by norm_num) (by norm_num)) 0 (by norm_num)
  simp [Spec.meanR, sum_range_succ] at h1

/-- C136: only for batches of one trip (or with equal targets) is it the mean squared error. -/
theorem C136_edge_partial (limit n : ℕ) (hn : 0 < n) (hl : n < limit) (y : ℕ → ℝ) :
    (∀ yhat, tripMSE limit n yhat y = Spec.mse n yhat y) ↔ ∀ i < n, y i = Spec.meanR n y := by
  have hpos : (0 : ℝ) < n := by exact_mod_cast hn
  constructor
  · intro h
    have hmin : Spec.Minimises (fun f => tripMSE limit n f y) y := by
      intro f
      simp only [h]
      have h0 : Spec.mse n y y = 0 := by simp [Spec.mse]
      rw [h0]
      exact div_nonneg (sum_nonneg fun i _ => sq_nonneg _) hpos.le
    exact (C136_edge_minimiser limit n hn hl y y).1 hmin
  · intro h yhat
    rw [C136_edge_loss limit n hn hl]
    have h0 : Spec.mse n y (fun _ => Spec.meanR n y) = 0 := by
      unfold Spec.mse
      rw [sum_eq_zero fun i hi => by rw [h i (mem_range.1 hi)]; ring]
      simp
    rw [h0, add_zero]
    have h1 : ∑ i ∈ range n, (yhat i - Spec.meanR n y) ^ 2 = ∑ i ∈ range n, (yhat i - y i) ^ 2 :=
      sum_congr rfl fun i hi => by rw [h i (mem_range.1 hi)]
    simp only [Spec.mse, h1]

example : ∀ i < 1, (fun _ : ℕ => (5 : ℝ)) i = Spec.meanR 1 (fun _ => 5) := by intro i _; simp [Spec.meanR]

/-- C136: at the limit the value jumps: a batch of exactly that size has a loss that is larger by that factor. -/
theorem C136_limit (n limit : ℕ) (hn : 0 < n) (hl : n < limit) (yhat y : ℕ → ℝ) : tripMSE n n yhat y = n * tripMSE limit n yhat y := by
  have hne : (n : ℝ) ≠ 0 := by exact_mod_cast hn.ne'
  unfold tripMSE
  rw [if_neg (lt_irrefl n), if_pos hl]
  have : ∀ i ∈ range n, ∑ j ∈ (range n).filter (fun j => j / n = i / n), (yhat i - y j) ^ 2 = ∑ j ∈ range n, (yhat i - y j) ^ 2 := by
    intro i hi
    rw [filter_true_of_mem]
    intro j hj
    rw [Nat.div_eq_of_lt (mem_range.1 hi), Nat.div_eq_of_lt (mem_range.1 hj)]
  rw [sum_congr rfl this]
  field_simp

/-- C136: the loss for the flows is smallest exactly if the prediction for each region is half way between the square root of its total and the
square root of its number. -/
theorem C136_flow_minimiser (limit n : ℕ) (hn : 0 < n) (yhat : ℕ → ℝ) (y : ℕ → ℝ × ℝ) :
    Spec.Minimises (fun f => flowMSE limit n f y) yhat ↔ ∀ i < n, yhat i = ((y i).1 + (y i).2) / 2 := by
  have hpos : (0 : ℝ) < n := by exact_mod_cast hn
  obtain ⟨c, hc, hform⟩ : ∃ c : ℝ, 0 < c ∧ ∀ f : ℕ → ℝ, flowMSE limit n f y =
      (∑ i ∈ range n, ((f i - (y i).1) ^ 2 + (f i - (y i).2) ^ 2)) * c := by
    by_cases hl : n < limit
    · refine ⟨(n * 2 : ℝ)⁻¹, by positivity, fun f => ?_⟩
      unfold flowMSE
      rw [if_pos hl, div_eq_mul_inv]
    · refine ⟨(n : ℝ)⁻¹, by positivity, fun f => ?_⟩
      unfold flowMSE
      rw [if_neg hl, div_eq_mul_inv]
  have hsq : ∀ (f : ℕ → ℝ), ∑ i ∈ range n, ((f i - (y i).1) ^ 2 + (f i - (y i).2) ^ 2) =
      (∑ i ∈ range n, 2 * (f i - ((y i).1 + (y i).2) / 2) ^ 2) + ∑ i ∈ range n, ((y i).1 - (y i).2) ^ 2 / 2 := by
    intro f
    rw [← sum_add_distrib]
    apply sum_congr rfl
    intro i _
    ring
  constructor
  · intro h i hi
    have := h fun k => ((y k).1 + (y k).2) / 2
    simp only [hform, hsq] at this
    have h1 := le_of_mul_le_mul_right this hc
    have h0 : ∑ i ∈ range n, 2 * (((y i).1 + (y i).2) / 2 - ((y i).1 + (y i).2) / 2) ^ 2 = 0 := by simp
    rw [h0] at h1
    have h2 : ∑ i ∈ range n, 2 * (yhat i - ((y i).1 + (y i).2) / 2) ^ 2 ≤ 0 := by linarith
    have h3 := (sum_eq_zero_iff_of_nonneg fun i _ => by positivity).1 (le_antisymm h2 (sum_nonneg fun i _ => by positivity)) i (mem_range.2 hi)
    have h4 : (yhat i - ((y i).1 + (y i).2) / 2) ^ 2 = 0 := by linarith
    have := pow_eq_zero_iff (two_ne_zero) |>.1 h4
    linarith
  · intro h f
    simp only [hform, hsq]
    apply mul_le_mul_of_nonneg_right _ hc.le
    have h0 : ∑ i ∈ range n, 2 * (yhat i - ((y i).1 + (y i).2) / 2) ^ 2 = 0 := by
      apply sum_eq_zero
      intro i hi
      rw [h i (mem_range.1 hi)]
      ring
    have h1 : 0 ≤ ∑ i ∈ range n, 2 * (f i - ((y i).1 + (y i).2) / 2) ^ 2 := sum_nonneg fun i _ => by positivity
    rw [h0]
    linarith

example : Spec.Minimises (fun f => flowMSE 20000 1 f (fun _ => (0, 2))) (fun _ => 1) :=
  (C136_flow_minimiser 20000 1 (by norm_num) _ _).2 (by intro i _; norm_num)

/-- C136: so predicting the totals correctly does not make it smallest. -/
theorem C136_flow_false : ¬ ∀ (n : ℕ) (total : ℕ → ℝ), 0 < n → (∀ k, 0 ≤ total k) →
    Spec.Minimises (fun f => flowMSE 20000 n f (scaledFlow total)) (fun k => Real.sqrt (total k)) := by
  intro h
  have h1 := (C136_flow_minimiser 20000 1 (by norm_num) _ _).1 (h 1 (fun _ => 4) (by norm_num) (by norm_num)) 0 (by norm_num)
  have : Real.sqrt 4 = 2 := by rw [show (4 : ℝ) = 2 ^ 2 by norm_num]; exact Real.sqrt_sq (by norm_num)
  simp [scaledFlow, this] at h1

/-- C136: counts of cells outside the batch, for instance of test cells, enter the loss through the totals. -/
theorem C136_held_out_false : ¬ ∀ (I J : ℕ) (table table' : ℕ → ℕ → ℝ) (b : GatBatch) (p : GatPrediction) (w0 w1 w2 : ℝ),
    (∀ k < b.n, table (b.cell k).1 (b.cell k).2 = b.count k ∧ table' (b.cell k).1 (b.cell k).2 = b.count k) →
    gatLoss 20000 w0 w1 w2 0 I J table b p = gatLoss 20000 w0 w1 w2 0 I J table' b p := by
  intro h
  have := h 2 1 (fun _ _ => 0) (fun i _ => if i = 1 then 4 else 0) ⟨1, fun _ => (0, 0), fun _ => 0, 1, fun _ => 0, 1, fun _ => 0⟩
    ⟨fun _ => 0, fun _ => 0, fun _ => 0, 0, 0⟩ 0 1 0 (by intro k _; simp)
  have h4 : Real.sqrt 4 = 2 := by rw [show (4 : ℝ) = 2 ^ 2 by norm_num]; exact Real.sqrt_sq (by norm_num)
  simp [gatLoss, flowMSE, scaledFlow, inflow, h4] at this
  norm_num at this

/-- C136: with weight zero for the flows only counts of the batch enter. -/
theorem C136_held_out_partial (limit I J : ℕ) (table table' : ℕ → ℕ → ℝ) (b : GatBatch) (p : GatPrediction) (w0 reg : ℝ) :
    gatLoss limit w0 0 0 reg I J table b p = gatLoss limit w0 0 0 reg I J table' b p := by
  simp [gatLoss]

/-- C136: the parts are weighted as configured: edges, inflows, outflows and half the sum of the mean squares of the embeddings. -/
theorem C136_weights (limit I J : ℕ) (table : ℕ → ℕ → ℝ) (b : GatBatch) (p : GatPrediction) (w0 w1 w2 reg : ℝ) :
    gatLoss limit w0 w1 w2 reg I J table b p = w0 * gatLoss limit 1 0 0 0 I J table b p + w1 * gatLoss limit 0 1 0 0 I J table b p +
      w2 * gatLoss limit 0 0 1 0 I J table b p + reg * ((p.regOrigin + p.regDestination) / 2) ∧
    gatLoss limit 1 0 0 0 I J table b p = tripMSE limit b.n p.edge (fun k => Real.sqrt (b.count k)) ∧
    gatLoss limit 0 1 0 0 I J table b p =
      flowMSE limit b.nIn p.inflow (fun k => (Real.sqrt (b.inNode k), Real.sqrt (∑ i ∈ range I, table i (b.inNode k)))) ∧
    gatLoss limit 0 0 1 0 I J table b p =
      flowMSE limit b.nOut p.outflow (fun k => (Real.sqrt (b.outNode k), Real.sqrt (∑ j ∈ range J, table (b.outNode k) j))) := by
  refine ⟨by unfold gatLoss; ring, by simp [gatLoss], ?_, ?_⟩ <;> simp [gatLoss, scaledFlow, inflow, outflow]

end GeNSIT
