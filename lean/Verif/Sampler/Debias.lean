import Verif.Stats.Series
import Mathlib.MeasureTheory.Integral.Bochner.Set
import Mathlib.MeasureTheory.Integral.DominatedConvergence
import Mathlib.MeasureTheory.Function.L1Space.Integrable
import Mathlib.Data.List.Perm.Basic

/-!
# C155: the randomly truncated estimate of 1/z

`unbiased_z_inverse` and `annealed_importance_sampling_log_z_parallel`
(`gensit/learning_models/HarrisWilsonModel_MCMC.py:426-455, 543-605`), with the stopping times of `generate_stopping_times` and the series of
`compute_truncated_infinite_series` (`gensit/utils/probability_utils.py:242-299`) as modelled for C77 and C78.
-/

set_option linter.unusedVariables false

namespace GeNSIT

open MeasureTheory

/-! ## Model -/

/-- The exceptions of `unbiased_z_inverse`: the attribute `n_workers`, which the class does not have, and those of the series. -/
inductive ZErr
  | attribute
  | series
deriving DecidableEq

/-- `unbiased_z_inverse` (lines 543-605) with stopping time `N` and the log weight `task i` of each annealing run.  With several workers the
debug message before the parallel computation reads `self.n_workers` (line 558), which does not exist (the attribute is `mcmc_workers`,
line 67).  Exact reals, so the test for infinite log weights always passes. -/
noncomputable def unbiasedZInverse (workers N : ℕ) (k : ℝ) (task : ℕ → ℝ) : Except ZErr (ℝ × ℝ) :=
  if 1 < min workers (N + 1) then .error .attribute
  else match truncatedSeries ((List.range (N + 1)).map task) N k with
    | none => .error .series
    | some r => .ok r

/-- `annealed_importance_sampling_log_z_parallel` (lines 426-455): `imap_unordered` hands the results over in the order in which the workers
finish; `order` is that order. -/
def parallelWeights (task : ℕ → ℝ) (order : List ℕ) : List ℝ := order.map task

open Classical in
/-- The stopping time `generate_stopping_times` makes of the uniform draw `u` (`probability_utils.py:248-253`). -/
noncomputable def drawnStop (k u : ℝ) : ℕ :=
  if h : ∃ n fuel, stoppingTime k u fuel = some n then h.choose else 0

/-- The signed number a result stands for; 0 for an exception. -/
noncomputable def zValue : Except ZErr (ℝ × ℝ) → ℝ
  | .error _ => 0
  | .ok r => seriesValue r

/-! ## Specification -/

namespace Spec

/-- One over the average of the first `i + 1` weights. -/
noncomputable def runningInverse (task : ℕ → ℝ) (i : ℕ) : ℝ := (i + 1) / ∑ j ∈ Finset.range (i + 1), Real.exp (task j)

/-- The randomly truncated estimate the comments of the code announce: `Y₀ + ∑_{i=1}^{N} (Yᵢ - Yᵢ₋₁) / P(N ≥ i)`, where
`P(N ≥ i) = i^{-k}`. -/
noncomputable def truncatedEstimate (task : ℕ → ℝ) (N : ℕ) (k : ℝ) : ℝ :=
  runningInverse task 0 + ∑ i ∈ Finset.range N, (runningInverse task (i + 1) - runningInverse task i) * ((i + 1 : ℕ) : ℝ) ^ k

/-- The mean over the uniform draw that makes the stopping time. -/
noncomputable def stopMean (k : ℝ) (F : ℕ → ℝ) : ℝ := ∫ u in Set.Ioo (0 : ℝ) 1, F (drawnStop k u)

end Spec

/-! ## Lemmas -/

theorem drawnStop_spec (k u : ℝ) (hk : 0 < k) (hu : 0 < u) : ∃ fuel, stoppingTime k u fuel = some (drawnStop k u) := by
  have h : ∃ n fuel, stoppingTime k u fuel = some n := by
    obtain ⟨fuel, n, h⟩ := C77_terminates k u hk hu
    exact ⟨n, fuel, h⟩
  unfold drawnStop
  rw [dif_pos h]
  exact h.choose_spec

theorem drawnStop_ge (k u : ℝ) (hk : 0 < k) (hu : 0 < u) (hu1 : u < 1) (i : ℕ) (hi : 1 ≤ i) :
    i ≤ drawnStop k u ↔ u < (i : ℝ) ^ (-k) := by
  have hanti : ∀ a b : ℕ, 1 ≤ a → a ≤ b → (b : ℝ) ^ (-k) ≤ (a : ℝ) ^ (-k) := by
    intro a b ha hab
    exact Real.rpow_le_rpow_of_nonpos (by exact_mod_cast ha) (by exact_mod_cast hab) (by linarith)
  obtain ⟨fuel, hs⟩ := drawnStop_spec k u hk hu
  obtain ⟨h2, h3, h4⟩ := stopLoop_spec k u fuel 1 _ hs
  constructor
  · intro hin
    rcases Nat.eq_or_lt_of_le hi with rfl | hi2
    · simpa using hu1
    · have := h4 (i - 1) (by omega) (by omega)
      rwa [show i - 1 + 1 = i by omega] at this
  · intro h1
    by_contra hc
    have := hanti (drawnStop k u + 1) i (by omega) (by omega)
    exact absurd (this.trans h3) (not_le.2 h1)

theorem drawnStop_pos (k u : ℝ) (hk : 0 < k) (hu : 0 < u) : 1 ≤ drawnStop k u := by
  obtain ⟨fuel, hs⟩ := drawnStop_spec k u hk hu
  exact (stopLoop_spec k u fuel 1 _ hs).1

theorem stop_indicator (k : ℝ) (hk : 0 < k) (i : ℕ) (hi : 1 ≤ i) (u : ℝ) (hu : u ∈ Set.Ioo (0 : ℝ) 1) :
    (if i ≤ drawnStop k u then (1 : ℝ) else 0) = (Set.Ioo (0 : ℝ) ((i : ℝ) ^ (-k))).indicator (fun _ => (1 : ℝ)) u := by
  rw [Set.indicator_apply]
  have := drawnStop_ge k u hk hu.1 hu.2 i hi
  by_cases h : u < (i : ℝ) ^ (-k)
  · rw [if_pos (this.2 h), if_pos ⟨hu.1, h⟩]
  · rw [if_neg (fun h' => h (this.1 h')), if_neg (fun h' => h h'.2)]

theorem pow_le_one_of (k : ℝ) (hk : 0 < k) (i : ℕ) (hi : 1 ≤ i) : (i : ℝ) ^ (-k) ≤ 1 := by
  have : (i : ℝ) ^ (-k) ≤ (1 : ℝ) ^ (-k) := Real.rpow_le_rpow_of_nonpos one_pos (by exact_mod_cast hi) (by linarith)
  simpa using this

theorem integrable_stop_indicator (k : ℝ) (hk : 0 < k) (i : ℕ) (hi : 1 ≤ i) :
    IntegrableOn (fun u => if i ≤ drawnStop k u then (1 : ℝ) else 0) (Set.Ioo (0 : ℝ) 1) := by
  have h : IntegrableOn (fun u => (Set.Ioo (0 : ℝ) ((i : ℝ) ^ (-k))).indicator (fun _ => (1 : ℝ)) u) (Set.Ioo (0 : ℝ) 1) := by
    refine IntegrableOn.indicator ?_ measurableSet_Ioo
    exact integrableOn_const (by simp)
  exact h.congr_fun (fun u hu => (stop_indicator k hk i hi u hu).symm) measurableSet_Ioo

theorem integral_stop_indicator (k : ℝ) (hk : 0 < k) (i : ℕ) (hi : 1 ≤ i) :
    ∫ u in Set.Ioo (0 : ℝ) 1, (if i ≤ drawnStop k u then (1 : ℝ) else 0) = (i : ℝ) ^ (-k) := by
  rw [setIntegral_congr_fun measurableSet_Ioo (fun u hu => stop_indicator k hk i hi u hu),
    setIntegral_indicator measurableSet_Ioo, Set.Ioo_inter_Ioo, setIntegral_const]
  have h1 := pow_le_one_of k hk i hi
  have h0 : (0 : ℝ) ≤ (i : ℝ) ^ (-k) := by positivity
  simp [Measure.real, h1, h0]

theorem rpow_cancel (k : ℝ) (i : ℕ) (hi : 1 ≤ i) : (i : ℝ) ^ k * (i : ℝ) ^ (-k) = 1 := by
  have : (0 : ℝ) < i := by exact_mod_cast hi
  rw [← Real.rpow_add this, add_neg_cancel, Real.rpow_zero]

theorem meanWeight_range (task : ℕ → ℝ) (N i : ℕ) (hi : i ≤ N) :
    1 / Spec.meanWeight ((List.range (N + 1)).map task) i = Spec.runningInverse task i := by
  unfold Spec.meanWeight Spec.runningInverse
  rw [← List.map_take, List.take_range, Nat.min_eq_left (by omega), List.map_map, one_div_div]
  congr 1

theorem debiased_range (task : ℕ → ℝ) (N : ℕ) (k : ℝ) :
    Spec.debiased ((List.range (N + 1)).map task) N k = Spec.truncatedEstimate task N k := by
  unfold Spec.debiased Spec.truncatedEstimate
  rw [meanWeight_range task N 0 (Nat.zero_le _)]
  congr 1
  refine Finset.sum_congr rfl fun i hi => ?_
  rw [Finset.mem_range] at hi
  rw [meanWeight_range task N i (by omega), meanWeight_range task N (i + 1) (by omega)]

/-- An exception of the series means that the two sums are equal. -/
theorem truncatedSeries_none (w : List ℝ) (N : ℕ) (k : ℝ) (h : truncatedSeries w N k = none) : posSum w N k = negSum w N k := by
  unfold truncatedSeries at h
  simp only at h
  split at h
  · split at h
    · next _ h1 =>
      have : Real.exp (negSum w N k - posSum w N k) = 1 := by linarith
      rw [Real.exp_eq_one_iff] at this
      linarith
    · cases h
  · split at h
    · next _ h1 =>
      have : Real.exp (posSum w N k - negSum w N k) = 1 := by linarith
      rw [Real.exp_eq_one_iff] at this
      linarith
    · cases h

/-! ## C155 -/

/-- **C155 (exact value).** With one worker, the signed number returned is the announced estimate plus
`(N + 2 - Y_N) (N + 1)^k`. -/
theorem C155_value (N : ℕ) (k : ℝ) (task : ℕ → ℝ) (r : ℝ × ℝ) (h : unbiasedZInverse 1 N k task = .ok r) :
    seriesValue r = Spec.truncatedEstimate task N k + ((N + 2 : ℕ) - Spec.runningInverse task N) * ((N + 1 : ℕ) : ℝ) ^ k := by
  unfold unbiasedZInverse at h
  rw [if_neg (by omega)] at h
  split at h
  · cases h
  · next r' hr =>
    cases h
    rw [C78_value _ N k r (by simp) hr, debiased_range, meanWeight_range task N N le_rfl]

/-- **C155 is false**: with two workers or more every estimate raises an exception, because the stopping time is at least 1. -/
theorem C155_workers_false (k u : ℝ) (fuel N : ℕ) (hN : stoppingTime k u fuel = some N) (workers : ℕ) (hw : 2 ≤ workers) (task : ℕ → ℝ) :
    unbiasedZInverse workers N k task = .error .attribute := by
  have := (C77_least k u fuel N hN).1.1
  unfold unbiasedZInverse
  rw [if_pos (by omega)]

/-- **C155 (the announced scheme, stopped at a fixed level).** Whatever the weights, the mean over the stopping time of the announced
estimate, stopped at level `n` if the stopping time is larger, is one over the average of the first `n + 1` weights. -/
theorem C155_truncated_mean (k : ℝ) (hk : 0 < k) (task : ℕ → ℝ) (n : ℕ) :
    Spec.stopMean k (fun N => Spec.truncatedEstimate task (min N n) k) = Spec.runningInverse task n := by
  have key : ∀ u : ℝ, Spec.truncatedEstimate task (min (drawnStop k u) n) k = Spec.runningInverse task 0 +
      ∑ i ∈ Finset.range n, (Spec.runningInverse task (i + 1) - Spec.runningInverse task i) * ((i + 1 : ℕ) : ℝ) ^ k *
        (if i + 1 ≤ drawnStop k u then (1 : ℝ) else 0) := by
    intro u
    unfold Spec.truncatedEstimate
    congr 1
    have hsub : Finset.range (min (drawnStop k u) n) ⊆ Finset.range n := Finset.range_subset_range.2 (min_le_right _ _)
    rw [← Finset.sum_subset hsub]
    · refine Finset.sum_congr rfl fun i hi => ?_
      rw [Finset.mem_range] at hi
      rw [if_pos (by omega), mul_one]
    · intro i hi hi'
      rw [Finset.mem_range] at hi hi'
      rw [if_neg (by omega), mul_zero]
  unfold Spec.stopMean
  simp only [key]
  rw [integral_add (by exact integrableOn_const (by simp)), integral_finsetSum]
  · have : ∀ i ∈ Finset.range n, ∫ u in Set.Ioo (0 : ℝ) 1, (Spec.runningInverse task (i + 1) - Spec.runningInverse task i) *
        ((i + 1 : ℕ) : ℝ) ^ k * (if i + 1 ≤ drawnStop k u then (1 : ℝ) else 0) =
        Spec.runningInverse task (i + 1) - Spec.runningInverse task i := by
      intro i _
      rw [integral_const_mul, integral_stop_indicator k hk (i + 1) (by omega), mul_assoc, rpow_cancel k (i + 1) (by omega), mul_one]
    rw [Finset.sum_congr rfl this, Finset.sum_range_sub]
    simp
  · intro i _
    exact (integrable_stop_indicator k hk (i + 1) (by omega)).const_mul _
  · refine integrable_finsetSum _ fun i _ => ?_
    exact (integrable_stop_indicator k hk (i + 1) (by omega)).const_mul _

/-- **C155 (the announced scheme).** If the running inverses have bounded variation and tend to `y`, the mean over the stopping time of the announced
estimate is `y`. -/
theorem C155_limit_partial (k : ℝ) (hk : 0 < k) (task : ℕ → ℝ) (y : ℝ)
    (hs : Summable fun i => |Spec.runningInverse task (i + 1) - Spec.runningInverse task i|)
    (hy : Filter.Tendsto (Spec.runningInverse task) Filter.atTop (nhds y)) :
    Spec.stopMean k (fun N => Spec.truncatedEstimate task N k) = y := by
  let F : ℕ → ℝ → ℝ := fun i u => match i with
    | 0 => Spec.runningInverse task 0
    | i + 1 => (Spec.runningInverse task (i + 1) - Spec.runningInverse task i) * ((i + 1 : ℕ) : ℝ) ^ k *
        (if i + 1 ≤ drawnStop k u then (1 : ℝ) else 0)
  have hint : ∀ i, Integrable (F i) (volume.restrict (Set.Ioo (0 : ℝ) 1)) := by
    intro i
    cases i with
    | zero => exact integrableOn_const (by simp)
    | succ i => exact (integrable_stop_indicator k hk (i + 1) (by omega)).const_mul _
  have hval : ∀ i, ∫ u in Set.Ioo (0 : ℝ) 1, F (i + 1) u = Spec.runningInverse task (i + 1) - Spec.runningInverse task i := by
    intro i
    simp only [F]
    rw [integral_const_mul, integral_stop_indicator k hk (i + 1) (by omega), mul_assoc, rpow_cancel k (i + 1) (by omega), mul_one]
  have hval0 : ∫ u in Set.Ioo (0 : ℝ) 1, F 0 u = Spec.runningInverse task 0 := by
    simp [F]
  have hnorm : ∀ i, ∫ u in Set.Ioo (0 : ℝ) 1, ‖F (i + 1) u‖ = |Spec.runningInverse task (i + 1) - Spec.runningInverse task i| := by
    intro i
    have : ∀ u, ‖F (i + 1) u‖ = |Spec.runningInverse task (i + 1) - Spec.runningInverse task i| * ((i + 1 : ℕ) : ℝ) ^ k *
        (if i + 1 ≤ drawnStop k u then (1 : ℝ) else 0) := by
      intro u
      simp only [F, norm_mul, Real.norm_eq_abs]
      rw [abs_of_nonneg (a := ((i + 1 : ℕ) : ℝ) ^ k) (by positivity)]
      congr 1
      split <;> simp
    simp only [this]
    rw [integral_const_mul, integral_stop_indicator k hk (i + 1) (by omega), mul_assoc, rpow_cancel k (i + 1) (by omega), mul_one]
  have hsum : Summable fun i => ∫ u in Set.Ioo (0 : ℝ) 1, ‖F i u‖ := by
    rw [← summable_nat_add_iff 1]
    simpa only [hnorm] using hs
  have h := hasSum_integral_of_summable_integral_norm hint hsum
  have hpt : ∀ u, ∑' i, F i u = Spec.truncatedEstimate task (drawnStop k u) k := by
    intro u
    rw [tsum_eq_sum (s := Finset.range (drawnStop k u + 1))]
    · rw [Finset.sum_range_succ', add_comm]
      unfold Spec.truncatedEstimate
      congr 1
      refine Finset.sum_congr rfl fun i hi => ?_
      rw [Finset.mem_range] at hi
      simp only [F]
      rw [if_pos (by omega), mul_one]
    · intro i hi
      rw [Finset.mem_range] at hi
      cases i with
      | zero => omega
      | succ i => simp only [F]; rw [if_neg (by omega), mul_zero]
  simp only [hpt] at h
  have h1 := h.tendsto_sum_nat
  have h2 : ∀ n, ∑ i ∈ Finset.range (n + 1), ∫ u in Set.Ioo (0 : ℝ) 1, F i u = Spec.runningInverse task n := by
    intro n
    rw [Finset.sum_range_succ', hval0]
    simp only [hval]
    rw [Finset.sum_range_sub]
    ring
  have h3 := (Filter.tendsto_add_atTop_iff_nat 1).2 h1
  simp only [h2] at h3
  exact tendsto_nhds_unique h3 hy

/-- The value in every case, an exception counting as 0. -/
theorem zValue_eq (N : ℕ) (k : ℝ) (task : ℕ → ℝ) :
    zValue (unbiasedZInverse 1 N k task) =
      Spec.truncatedEstimate task N k + ((N + 2 : ℕ) - Spec.runningInverse task N) * ((N + 1 : ℕ) : ℝ) ^ k := by
  cases h : unbiasedZInverse 1 N k task with
  | ok r => exact C155_value N k task r h
  | error e =>
    unfold unbiasedZInverse at h
    rw [if_neg (by omega)] at h
    split at h
    · next hn =>
      have hpq := truncatedSeries_none _ _ _ hn
      have hw : (List.range (N + 1)).map task ≠ [] := by simp
      have hv := series_sums_value _ N k hw
      rw [debiased_range, meanWeight_range task N N le_rfl] at hv
      rw [← hv]
      have hp : 0 < ∑ i ∈ Finset.range (N + 2), Real.exp (lnYpos ((List.range (N + 1)).map task) N k i) :=
        Finset.sum_pos (fun i _ => Real.exp_pos _) ⟨0, by simp⟩
      have hq : 0 < ∑ i ∈ Finset.range (N + 1), Real.exp (lnYneg ((List.range (N + 1)).map task) N k i) :=
        Finset.sum_pos (fun i _ => Real.exp_pos _) ⟨0, by simp⟩
      rw [Real.log_injOn_pos (Set.mem_Ioi.2 hp) (Set.mem_Ioi.2 hq) hpq, sub_self]
      rfl
    · cases h

/-- With bounded log weights the value is at least `(N + 2 - C) (N + 1)^k`. -/
theorem zValue_ge (k : ℝ) (hk : 1 ≤ k) (task : ℕ → ℝ) (lo hi : ℝ) (hlo : ∀ i, lo ≤ task i) (hhi : ∀ i, task i ≤ hi) :
    ∃ C : ℝ, 0 < C ∧ ∀ N : ℕ, ((N : ℝ) + 2 - C) * ((N + 1 : ℕ) : ℝ) ^ k ≤ zValue (unbiasedZInverse 1 N k task) := by
  set a : ℝ := Real.exp lo with ha
  set b : ℝ := Real.exp hi with hb
  have ha0 : 0 < a := Real.exp_pos _
  have hb0 : 0 < b := Real.exp_pos _
  set S : ℕ → ℝ := fun i => ∑ j ∈ Finset.range (i + 1), Real.exp (task j) with hS
  have hSlo : ∀ i : ℕ, ((i : ℝ) + 1) * a ≤ S i := by
    intro i
    have := Finset.card_nsmul_le_sum (Finset.range (i + 1)) (fun j => Real.exp (task j)) a
      (fun j _ => Real.exp_le_exp.2 (hlo j))
    simpa using this
  have hShi : ∀ i : ℕ, S i ≤ ((i : ℝ) + 1) * b := by
    intro i
    have := Finset.sum_le_card_nsmul (Finset.range (i + 1)) (fun j => Real.exp (task j)) b
      (fun j _ => Real.exp_le_exp.2 (hhi j))
    simpa using this
  have hS0 : ∀ i, 0 < S i := fun i => lt_of_lt_of_le (by positivity) (hSlo i)
  have hSs : ∀ i, S (i + 1) = S i + Real.exp (task (i + 1)) := fun i => Finset.sum_range_succ _ _
  have hY : ∀ i, Spec.runningInverse task i = ((i : ℝ) + 1) / S i := fun i => rfl
  have hYle : ∀ i, Spec.runningInverse task i ≤ 1 / a := by
    intro i
    rw [hY, div_le_div_iff₀ (hS0 i) ha0]
    linarith [hSlo i]
  have hY0 : 0 ≤ Spec.runningInverse task 0 := by
    rw [hY]
    have := hS0 0
    positivity
  have hD : ∀ i : ℕ, -(b / a ^ 2 / ((i : ℝ) + 2)) ≤ Spec.runningInverse task (i + 1) - Spec.runningInverse task i := by
    intro i
    have e : Spec.runningInverse task (i + 1) - Spec.runningInverse task i =
        (S i - ((i : ℝ) + 1) * Real.exp (task (i + 1))) / (S (i + 1) * S i) := by
      rw [hY, hY, div_sub_div _ _ (hS0 _).ne' (hS0 _).ne', hSs]
      congr 1
      push_cast
      ring
    rw [e]
    have h1 : -(((i : ℝ) + 1) * b) ≤ S i - ((i : ℝ) + 1) * Real.exp (task (i + 1)) := by
      have : ((i : ℝ) + 1) * Real.exp (task (i + 1)) ≤ ((i : ℝ) + 1) * b :=
        mul_le_mul_of_nonneg_left (Real.exp_le_exp.2 (hhi _)) (by positivity)
      linarith [hS0 i]
    have h2 : (((i : ℝ) + 2) * a) * (((i : ℝ) + 1) * a) ≤ S (i + 1) * S i := by
      have := hSlo (i + 1)
      push_cast at this
      exact mul_le_mul (by linarith) (hSlo i) (by positivity) (hS0 _).le
    rw [le_div_iff₀ (mul_pos (hS0 _) (hS0 _))]
    refine le_trans ?_ h1
    rw [neg_mul]
    apply neg_le_neg
    calc ((i : ℝ) + 1) * b = b / a ^ 2 / ((i : ℝ) + 2) * ((((i : ℝ) + 2) * a) * (((i : ℝ) + 1) * a)) := by
          field_simp
      _ ≤ b / a ^ 2 / ((i : ℝ) + 2) * (S (i + 1) * S i) := mul_le_mul_of_nonneg_left h2 (by positivity)
  refine ⟨1 / a + b / a ^ 2, by positivity, fun N => ?_⟩
  rw [zValue_eq]
  have hest : -(b / a ^ 2 * ((N + 1 : ℕ) : ℝ) ^ k) ≤ Spec.truncatedEstimate task N k := by
    unfold Spec.truncatedEstimate
    have hterm : ∀ i ∈ Finset.range N, -(b / a ^ 2 * (((N + 1 : ℕ) : ℝ) ^ k / ((N + 1 : ℕ) : ℝ))) ≤
        (Spec.runningInverse task (i + 1) - Spec.runningInverse task i) * ((i + 1 : ℕ) : ℝ) ^ k := by
      intro i hi
      rw [Finset.mem_range] at hi
      have hi0 : (0 : ℝ) < ((i + 1 : ℕ) : ℝ) := by positivity
      have hN0 : (0 : ℝ) < ((N + 1 : ℕ) : ℝ) := by positivity
      have p1 : ((i + 1 : ℕ) : ℝ) ^ k / ((i + 1 : ℕ) : ℝ) ≤ ((N + 1 : ℕ) : ℝ) ^ k / ((N + 1 : ℕ) : ℝ) := by
        rw [← Real.rpow_sub_one hi0.ne', ← Real.rpow_sub_one hN0.ne']
        exact Real.rpow_le_rpow hi0.le (by exact_mod_cast (by omega : i + 1 ≤ N + 1)) (by linarith)
      have p2 : ((i + 1 : ℕ) : ℝ) ^ k / ((i : ℝ) + 2) ≤ ((i + 1 : ℕ) : ℝ) ^ k / ((i + 1 : ℕ) : ℝ) := by
        refine div_le_div_of_nonneg_left (by positivity) hi0 ?_
        push_cast
        linarith
      have p3 := mul_le_mul_of_nonneg_right (hD i) (Real.rpow_nonneg hi0.le k)
      refine le_trans ?_ p3
      rw [neg_mul]
      apply neg_le_neg
      calc b / a ^ 2 / ((i : ℝ) + 2) * ((i + 1 : ℕ) : ℝ) ^ k = b / a ^ 2 * (((i + 1 : ℕ) : ℝ) ^ k / ((i : ℝ) + 2)) := by ring
        _ ≤ b / a ^ 2 * (((N + 1 : ℕ) : ℝ) ^ k / ((N + 1 : ℕ) : ℝ)) := mul_le_mul_of_nonneg_left (p2.trans p1) (by positivity)
    have hsum := Finset.card_nsmul_le_sum (Finset.range N) _ _ hterm
    rw [Finset.card_range, nsmul_eq_mul] at hsum
    have hN0 : (0 : ℝ) < ((N + 1 : ℕ) : ℝ) := by positivity
    have hlast : -(b / a ^ 2 * ((N + 1 : ℕ) : ℝ) ^ k) ≤ (N : ℝ) * -(b / a ^ 2 * (((N + 1 : ℕ) : ℝ) ^ k / ((N + 1 : ℕ) : ℝ))) := by
      rw [mul_neg]
      apply neg_le_neg
      have : (N : ℝ) * (b / a ^ 2 * (((N + 1 : ℕ) : ℝ) ^ k / ((N + 1 : ℕ) : ℝ))) =
          b / a ^ 2 * ((N + 1 : ℕ) : ℝ) ^ k * ((N : ℝ) / ((N + 1 : ℕ) : ℝ)) := by ring
      rw [this]
      refine mul_le_of_le_one_right (by positivity) ?_
      rw [div_le_one hN0]
      push_cast
      linarith
    linarith
  have hpow : (0 : ℝ) ≤ ((N + 1 : ℕ) : ℝ) ^ k := by positivity
  have h3 : ((N : ℝ) + 2 - 1 / a) * ((N + 1 : ℕ) : ℝ) ^ k ≤ ((N + 2 : ℕ) - Spec.runningInverse task N) * ((N + 1 : ℕ) : ℝ) ^ k := by
    refine mul_le_mul_of_nonneg_right ?_ hpow
    push_cast
    linarith [hYle N]
  have e : ((N : ℝ) + 2 - (1 / a + b / a ^ 2)) * ((N + 1 : ℕ) : ℝ) ^ k =
      ((N : ℝ) + 2 - 1 / a) * ((N + 1 : ℕ) : ℝ) ^ k - b / a ^ 2 * ((N + 1 : ℕ) : ℝ) ^ k := by ring
  linarith

/-- **C155 is false**: whatever the weights, as long as their logarithms are bounded, the returned value is bounded below but its mean over the
stopping time is infinite, for every power at least 1 (the code's is 1.1); so it is not 1/z. -/
theorem C155_mean_infinite_false (k : ℝ) (hk : 1 ≤ k) (task : ℕ → ℝ) (lo hi : ℝ) (hlo : ∀ i, lo ≤ task i) (hhi : ∀ i, task i ≤ hi) :
    (∃ B : ℝ, ∀ N, B ≤ zValue (unbiasedZInverse 1 N k task)) ∧
      ∫⁻ u in Set.Ioo (0 : ℝ) 1, ENNReal.ofReal (zValue (unbiasedZInverse 1 (drawnStop k u) k task)) = ⊤ := by
  obtain ⟨C, hC, hge⟩ := zValue_ge k hk task lo hi hlo hhi
  have hk0 : 0 < k := by linarith
  constructor
  · refine ⟨-(C * C ^ k), fun N => le_trans ?_ (hge N)⟩
    by_cases h : C ≤ (N : ℝ) + 2
    · have h1 : 0 ≤ ((N : ℝ) + 2 - C) * ((N + 1 : ℕ) : ℝ) ^ k := mul_nonneg (by linarith) (by positivity)
      have h2 : 0 ≤ C * C ^ k := by positivity
      linarith
    · push Not at h
      have h1 : ((N + 1 : ℕ) : ℝ) ^ k ≤ C ^ k := Real.rpow_le_rpow (by positivity) (by push_cast; linarith) hk0.le
      have h2 : (C - ((N : ℝ) + 2)) * ((N + 1 : ℕ) : ℝ) ^ k ≤ C * C ^ k := by
        have hN : (0 : ℝ) ≤ N := Nat.cast_nonneg N
        exact mul_le_mul (by linarith) h1 (by positivity) hC.le
      linarith
  · by_contra hne
    obtain ⟨n, hn⟩ := ENNReal.exists_nat_gt hne
    obtain ⟨c, hc⟩ := exists_nat_gt (2 * C)
    -- a level beyond both
    set l : ℕ := 2 * n + c + 1 with hl
    have hl1 : 1 ≤ l := by omega
    have hl0 : (0 : ℝ) < (l : ℝ) := by exact_mod_cast hl1
    have hlow : ∀ N, l ≤ N → (l : ℝ) / 2 * (l : ℝ) ^ k ≤ zValue (unbiasedZInverse 1 N k task) := by
      intro N hN
      refine le_trans ?_ (hge N)
      have hNl : (l : ℝ) ≤ N := by exact_mod_cast hN
      have hcl : (c : ℝ) ≤ l := by exact_mod_cast (by omega : c ≤ l)
      refine mul_le_mul (by linarith) (Real.rpow_le_rpow hl0.le (by push_cast; linarith) hk0.le) (by positivity) (by linarith)
    have hpow1 := pow_le_one_of k hk0 l hl1
    have hsub : Set.Ioo (0 : ℝ) ((l : ℝ) ^ (-k)) ⊆ Set.Ioo 0 1 := fun u hu => ⟨hu.1, hu.2.trans_le hpow1⟩
    have h1 : ∫⁻ u in Set.Ioo (0 : ℝ) ((l : ℝ) ^ (-k)), ENNReal.ofReal ((l : ℝ) / 2 * (l : ℝ) ^ k) ≤
        ∫⁻ u in Set.Ioo (0 : ℝ) 1, ENNReal.ofReal (zValue (unbiasedZInverse 1 (drawnStop k u) k task)) := by
      refine le_trans ?_ (lintegral_mono_set hsub)
      refine setLIntegral_mono' measurableSet_Ioo fun u hu => ?_
      refine ENNReal.ofReal_le_ofReal (hlow _ ?_)
      exact (drawnStop_ge k u hk0 hu.1 (hsub hu).2 l hl1).2 hu.2
    rw [setLIntegral_const, Real.volume_Ioo, sub_zero, ← ENNReal.ofReal_mul (by positivity), mul_assoc, rpow_cancel k l hl1, mul_one] at h1
    have h2 := lt_of_le_of_lt h1 hn
    rw [ENNReal.ofReal_lt_iff_lt_toReal (by positivity) (by simp)] at h2
    simp only [ENNReal.toReal_natCast] at h2
    have : (l : ℝ) = 2 * n + c + 1 := by rw [hl]; push_cast; ring
    have hc0 : (0 : ℝ) ≤ c := Nat.cast_nonneg c
    linarith

/-! ### The order in which parallel results arrive -/

/-- The value of three weights, for any order. -/
theorem value_three (x y z k : ℝ) (r : ℝ × ℝ) (h : truncatedSeries [x, y, z] 2 k = some r) :
    seriesValue r = 2 / (Real.exp x + Real.exp y) * (1 - 2 ^ k) + 3 / (Real.exp x + Real.exp y + Real.exp z) * (2 ^ k - 3 ^ k) +
      4 * 3 ^ k := by
  rw [C78_value _ 2 k r (by simp) h]
  unfold Spec.debiased Spec.meanWeight
  simp only [Finset.sum_range_succ, Finset.sum_range_zero, List.take, List.map, List.sum_cons, List.sum_nil]
  have e1 : ((0 + 1 : ℕ) : ℝ) ^ k = 1 := by simp
  rw [e1]
  simp only [one_div_div]
  push_cast
  norm_num
  ring_nf

/-- **C155 (order, up to two runs).** With stopping time 1 the value does not depend on the order in which the workers finish. -/
theorem C155_order_partial (k : ℝ) (task : ℕ → ℝ) (order order' : List ℕ) (ho : order.Perm (List.range 2)) (ho' : order'.Perm (List.range 2))
    (r r' : ℝ × ℝ) (h : truncatedSeries (parallelWeights task order) 1 k = some r)
    (h' : truncatedSeries (parallelWeights task order') 1 k = some r') : seriesValue r = seriesValue r' := by
  have key : ∀ (o : List ℕ) (q : ℝ × ℝ), o.Perm (List.range 2) → truncatedSeries (parallelWeights task o) 1 k = some q →
      seriesValue q = 2 / (Real.exp (task 0) + Real.exp (task 1)) +
        (3 - 2 / (Real.exp (task 0) + Real.exp (task 1))) * 2 ^ k := by
    intro o q hp hq
    have hl : o.length = 2 := hp.length_eq
    have hv := C78_value _ 1 k q (by unfold parallelWeights; intro h0; rw [List.map_eq_nil_iff] at h0; rw [h0] at hl; cases hl) hq
    rw [hv]
    unfold Spec.debiased Spec.meanWeight parallelWeights
    obtain ⟨a, b, rfl⟩ := List.length_eq_two.1 hl
    have hab : Real.exp (task a) + Real.exp (task b) = Real.exp (task 0) + Real.exp (task 1) := by
      have := (hp.map fun i => Real.exp (task i)).sum_eq
      simpa [List.range_succ] using this
    simp only [Finset.sum_range_succ, Finset.sum_range_zero, List.take, List.map, List.sum_cons, List.sum_nil]
    have e1 : ((0 + 1 : ℕ) : ℝ) ^ k = 1 := by simp
    rw [e1]
    simp only [one_div_div, add_zero, zero_add, hab]
    push_cast
    norm_num
  rw [key order r ho h, key order' r' ho' h']

/-- **C155 is false**: in general the value depends on the order in which the workers finish, for every power. -/
theorem C155_order_false (k : ℝ) (hk : 0 < k) : ∃ (task : ℕ → ℝ) (order order' : List ℕ) (r r' : ℝ × ℝ),
    order.Perm (List.range 3) ∧ order'.Perm (List.range 3) ∧ truncatedSeries (parallelWeights task order) 2 k = some r ∧
      truncatedSeries (parallelWeights task order') 2 k = some r' ∧ seriesValue r ≠ seriesValue r' := by
  have h2 : (1 : ℝ) < 2 ^ k := Real.one_lt_rpow (by norm_num) hk
  have h3 : (2 : ℝ) ^ k ≤ 3 ^ k := Real.rpow_le_rpow (by norm_num) (by norm_num) hk.le
  have ex : ∀ x y z : ℝ, 0 ≤ x → 0 ≤ y → 0 ≤ z → ∃ r, truncatedSeries [x, y, z] 2 k = some r := by
    intro x y z hx hy hz
    cases ht : truncatedSeries [x, y, z] 2 k with
    | some r => exact ⟨r, rfl⟩
    | none =>
      exfalso
      have hpq := truncatedSeries_none _ _ _ ht
      have hv := series_sums_value [x, y, z] 2 k (by simp)
      have hp : 0 < ∑ i ∈ Finset.range (2 + 2), Real.exp (lnYpos [x, y, z] 2 k i) :=
        Finset.sum_pos (fun i _ => Real.exp_pos _) ⟨0, by simp⟩
      have hq : 0 < ∑ i ∈ Finset.range (2 + 1), Real.exp (lnYneg [x, y, z] 2 k i) :=
        Finset.sum_pos (fun i _ => Real.exp_pos _) ⟨0, by simp⟩
      rw [Real.log_injOn_pos (Set.mem_Ioi.2 hp) (Set.mem_Ioi.2 hq) hpq, sub_self] at hv
      unfold Spec.debiased Spec.meanWeight at hv
      simp only [Finset.sum_range_succ, Finset.sum_range_zero, List.take, List.map, List.sum_cons, List.sum_nil] at hv
      have e1 : ((0 + 1 : ℕ) : ℝ) ^ k = 1 := by simp
      rw [e1] at hv
      simp only [one_div_div] at hv
      push_cast at hv
      have bx := Real.one_le_exp hx
      have by' := Real.one_le_exp hy
      have bz := Real.one_le_exp hz
      have q1 : 2 / (Real.exp x + Real.exp y) ≤ 1 := by rw [div_le_one (by positivity)]; linarith
      have q2 : 3 / (Real.exp x + Real.exp y + Real.exp z) ≤ 1 := by rw [div_le_one (by positivity)]; linarith
      have hv' : (0 : ℝ) = 2 / (Real.exp x + Real.exp y) * (1 - 2 ^ k) + 3 / (Real.exp x + Real.exp y + Real.exp z) * (2 ^ k - 3 ^ k) +
          4 * 3 ^ k := by
        rw [hv]
        norm_num
        ring_nf
      have m1 : -(2 ^ k - 1) ≤ 2 / (Real.exp x + Real.exp y) * (1 - 2 ^ k) := by nlinarith
      have m2 : -(3 ^ k - 2 ^ k) ≤ 3 / (Real.exp x + Real.exp y + Real.exp z) * (2 ^ k - 3 ^ k) := by nlinarith
      linarith
  have hl : (0 : ℝ) ≤ Real.log 4 := Real.log_nonneg (by norm_num)
  obtain ⟨r, hr⟩ := ex 0 0 (Real.log 4) le_rfl le_rfl hl
  obtain ⟨r', hr'⟩ := ex 0 (Real.log 4) 0 le_rfl hl le_rfl
  refine ⟨fun i => if i = 2 then Real.log 4 else 0, [0, 1, 2], [0, 2, 1], r, r', ?_, ?_, ?_, ?_, ?_⟩
  · decide
  · decide
  · simpa [parallelWeights] using hr
  · simpa [parallelWeights] using hr'
  · rw [value_three _ _ _ _ _ hr, value_three _ _ _ _ _ hr', Real.exp_zero, Real.exp_log (by norm_num)]
    intro h
    norm_num at h
    linarith

/-! ### Non-vacuity -/

/-- With one worker and one stopping time the function returns, and the values differ from 1/z. -/
example : ∃ r, unbiasedZInverse 1 1 1 (fun _ => 0) = .ok r ∧ seriesValue r = 5 := by
  obtain ⟨r, hr⟩ := truncatedSeries_demo
  have h : unbiasedZInverse 1 1 1 (fun _ => 0) = .ok r := by
    unfold unbiasedZInverse
    rw [if_neg (by decide)]
    have : (List.range (1 + 1)).map (fun _ => (0 : ℝ)) = [0, 0] := by rfl
    rw [this, hr]
  refine ⟨r, h, ?_⟩
  rw [C155_value 1 1 _ r h]
  unfold Spec.truncatedEstimate Spec.runningInverse
  norm_num [Finset.sum_range_succ]

/-- Bounded log weights exist, and so do weights whose running inverses have bounded variation. -/
example : (∫⁻ u in Set.Ioo (0 : ℝ) 1, ENNReal.ofReal (zValue (unbiasedZInverse 1 (drawnStop (11 / 10) u) (11 / 10) fun _ => 0)) = ⊤) ∧
    Spec.stopMean (11 / 10) (fun N => Spec.truncatedEstimate (fun _ => 0) N (11 / 10)) = 1 := by
  refine ⟨(C155_mean_infinite_false (11 / 10) (by norm_num) (fun _ => 0) 0 0 (fun _ => le_rfl) (fun _ => le_rfl)).2, ?_⟩
  have hr : ∀ i, Spec.runningInverse (fun _ => 0) i = 1 := by
    intro i
    unfold Spec.runningInverse
    have : ((i : ℝ) + 1) ≠ 0 := by positivity
    simp [this]
  refine C155_limit_partial (11 / 10) (by norm_num) (fun _ => 0) 1 ?_ ?_
  · simp [hr, summable_zero]
  · have : Spec.runningInverse (fun _ => 0) = fun _ => 1 := funext hr
    rw [this]
    exact tendsto_const_nhds

/-- A case with weights that are not all equal: the first is 3, the others are 1. -/
example : Spec.stopMean (11 / 10) (fun N => Spec.truncatedEstimate (fun i => if i = 0 then Real.log 3 else 0) N (11 / 10)) = 1 := by
  have hS : ∀ i : ℕ, ∑ j ∈ Finset.range (i + 1), Real.exp (if j = 0 then Real.log 3 else 0) = (i : ℝ) + 3 := by
    intro i
    rw [Finset.sum_range_succ']
    simp [Real.exp_log]
  have hr : ∀ i : ℕ, Spec.runningInverse (fun i => if i = 0 then Real.log 3 else 0) i = 1 - 2 / ((i : ℝ) + 3) := by
    intro i
    unfold Spec.runningInverse
    rw [hS]
    field_simp
    ring
  refine C155_limit_partial (11 / 10) (by norm_num) _ 1 ?_ ?_
  · refine summable_of_sum_range_le (c := 1) (fun _ => abs_nonneg _) fun n => ?_
    have : ∀ i ∈ Finset.range n, |Spec.runningInverse (fun i => if i = 0 then Real.log 3 else 0) (i + 1) -
        Spec.runningInverse (fun i => if i = 0 then Real.log 3 else 0) i| =
        Spec.runningInverse (fun i => if i = 0 then Real.log 3 else 0) (i + 1) -
        Spec.runningInverse (fun i => if i = 0 then Real.log 3 else 0) i := by
      intro i _
      rw [abs_of_nonneg]
      rw [hr, hr]
      have : 2 / (((i + 1 : ℕ) : ℝ) + 3) ≤ 2 / ((i : ℝ) + 3) :=
        div_le_div_of_nonneg_left (by norm_num) (by positivity) (by push_cast; linarith)
      linarith
    rw [Finset.sum_congr rfl this, Finset.sum_range_sub, hr, hr]
    have : 0 ≤ 2 / ((n : ℝ) + 3) := by positivity
    norm_num
    linarith
  · simp only [funext hr]
    have h : Filter.Tendsto (fun n : ℕ => 2 / ((n : ℝ) + 3)) Filter.atTop (nhds 0) :=
      tendsto_const_nhds.div_atTop (Filter.tendsto_atTop_add_const_right _ _ tendsto_natCast_atTop_atTop)
    simpa using h.const_sub 1

end GeNSIT
