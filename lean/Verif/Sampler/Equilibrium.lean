import Verif.Sampler.Normaliser
import Verif.Sampler.Saddle
import Verif.Sim.Props

/-!
# Property theorem C188 (one equilibrium)

The simulated dynamics of `/repo/gensit/physics_models/HarrisWilsonModel.py:97-135` (`run_single`, model `runSingle`) without noise, the totally constrained potential `sde_pot` of
`/repo/gensit/intensity_models/spatial_interaction_models/TotallyConstrained/__init__.py:32-56` (model `sdePotT`, `codeTarget`), and its Hessian as `biased_z_inverse`
(`/repo/gensit/learning_models/HarrisWilsonModel_MCMC.py:457-541`) factorises it.  `sde_pot_hessian` (`TotallyConstrained/__init__.py:66-73`) differentiates `sde_pot` automatically;
here a Hessian is anything whose entries are the second derivatives (`Spec.IsHessian`).
-/

namespace GeNSIT

open Finset

/-! ### Specification -/

/-- Attractions that a noise-free simulated step leaves as they are, with the totally constrained intensity normalised to one. -/
def Spec.AtRest (p : PotParams) (dt : ℝ) (I J : ℕ) (cost : ℕ → ℕ → ℝ) (w : ℕ → ℝ) : Prop :=
  ∀ j < J, 0 < w j ∧ runSingle p dt I (Spec.share I J p.alpha p.beta (fun k => Real.log (w k)) cost) (fun _ => 0) w j = w j

/-- Symmetric, and positive in every direction. -/
def Spec.PositiveDefinite {J : ℕ} (A : Matrix (Fin J) (Fin J) ℝ) : Prop :=
  (∀ i j, A i j = A j i) ∧ ∀ v : Fin J → ℝ, v ≠ 0 → 0 < ∑ i, ∑ j, v i * A i j * v j

/-- A Cholesky factorisation that succeeds on every positive definite matrix. -/
def Spec.CholeskyComplete {J : ℕ} (chol : Matrix (Fin J) (Fin J) ℝ → Option (Matrix (Fin J) (Fin J) ℝ)) : Prop :=
  ∀ A, Spec.PositiveDefinite A → ∃ L, chol A = some L

/-- An optimiser that comes back from every start, with a point where the gradient vanishes. -/
def Spec.FindsStationary {J : ℕ} (V : (Fin J → ℝ) → ℝ) (opt : (Fin J → ℝ) → Option (Fin J → ℝ)) : Prop :=
  ∀ s, ∃ x, opt s = some x ∧ ∀ j, HasDerivAt (fun t => V (Function.update x j t)) 0 (x j)

/-! ### Lemmas -/

/-- The utilities towards `j`, without its attraction. -/
noncomputable def access (p : PotParams) (I : ℕ) (cost : ℕ → ℕ → ℝ) (j : ℕ) : ℝ := ∑ i ∈ range I, Real.exp (-(p.beta * cost i j))

theorem access_pos (p : PotParams) {I : ℕ} (hI : 0 < I) (cost : ℕ → ℕ → ℝ) (j : ℕ) : 0 < access p I cost j :=
  sum_pos (fun _ _ => Real.exp_pos _) ⟨0, mem_range.2 hI⟩

theorem demandT_access (p : PotParams) (I J : ℕ) (cost : ℕ → ℕ → ℝ) (x : ℕ → ℝ) (j : ℕ) :
    demandT p I J cost x j = Real.exp (p.alpha * x j) * access p I cost j / ∑ k ∈ range J, Real.exp (p.alpha * x k) * access p I cost k := by
  have h : ∀ i k, Real.exp (p.alpha * x k - p.beta * cost i k) = Real.exp (p.alpha * x k) * Real.exp (-(p.beta * cost i k)) := by
    intro i k
    rw [← Real.exp_add, sub_eq_add_neg]
  unfold demandT Spec.share Spec.weight access
  rw [← sum_div, sum_comm]
  simp only [h, mul_sum]

theorem total_pos (p : PotParams) {I J : ℕ} (hI : 0 < I) (hJ : 0 < J) (cost : ℕ → ℕ → ℝ) (x : ℕ → ℝ) :
    0 < ∑ k ∈ range J, Real.exp (p.alpha * x k) * access p I cost k :=
  sum_pos (fun _ _ => mul_pos (Real.exp_pos _) (access_pos p hI cost _)) ⟨0, mem_range.2 hJ⟩

theorem demandT_pos (p : PotParams) {I J : ℕ} (hI : 0 < I) (hJ : 0 < J) (cost : ℕ → ℕ → ℝ) (x : ℕ → ℝ) (j : ℕ) : 0 < demandT p I J cost x j := by
  rw [demandT_access]
  exact div_pos (mul_pos (Real.exp_pos _) (access_pos p hI cost _)) (total_pos p hI hJ cost x)

theorem demandT_sum (p : PotParams) {I J : ℕ} (hI : 0 < I) (hJ : 0 < J) (cost : ℕ → ℕ → ℝ) (x : ℕ → ℝ) : ∑ j ∈ range J, demandT p I J cost x j = 1 := by
  simp only [demandT_access]
  rw [← sum_div, div_self (total_pos p hI hJ cost x).ne']

/-- At rest means: `κ·attraction = demand + δ` for every destination. -/
theorem atRest_iff (p : PotParams) (dt : ℝ) (hdt : dt ≠ 0) (he : p.epsilon ≠ 0) (I J : ℕ) (cost : ℕ → ℕ → ℝ) (w : ℕ → ℝ) :
    Spec.AtRest p dt I J cost w ↔ ∀ j < J, 0 < w j ∧ p.kappa * w j = demandT p I J cost (fun k => Real.log (w k)) j + p.delta := by
  unfold Spec.AtRest
  refine forall₂_congr fun j _ => ?_
  refine and_congr_right fun hw => ?_
  rw [C69_fixed_point p dt I _ w j hw hdt he]
  rfl

/-- `κ e^{(1-α)x} - δ e^{-αx}` grows with `x`. -/
theorem balance_strictMono (p : PotParams) (ha : 0 < p.alpha) (ha1 : p.alpha ≤ 1) (hd : 0 ≤ p.delta) (hk : 0 < p.kappa) (h : p.alpha < 1 ∨ 0 < p.delta) :
    StrictMono fun x : ℝ => p.kappa * Real.exp ((1 - p.alpha) * x) - p.delta * Real.exp (-(p.alpha * x)) := by
  intro x y hxy
  have h1 : Real.exp ((1 - p.alpha) * x) ≤ Real.exp ((1 - p.alpha) * y) := Real.exp_le_exp.2 (mul_le_mul_of_nonneg_left hxy.le (by linarith))
  have h2 : Real.exp (-(p.alpha * y)) < Real.exp (-(p.alpha * x)) := Real.exp_lt_exp.2 (neg_lt_neg (mul_lt_mul_of_pos_left hxy ha))
  rcases h with h | h
  · have h3 : Real.exp ((1 - p.alpha) * x) < Real.exp ((1 - p.alpha) * y) := Real.exp_lt_exp.2 (mul_lt_mul_of_pos_left hxy (by linarith))
    have h4 := mul_lt_mul_of_pos_left h3 hk
    have h5 := mul_le_mul_of_nonneg_left h2.le hd
    simp only
    linarith
  · have h4 := mul_le_mul_of_nonneg_left h1 hk.le
    have h5 := mul_lt_mul_of_pos_left h2 h
    simp only
    linarith

theorem atRest_balance (p : PotParams) (I J : ℕ) (cost : ℕ → ℕ → ℝ) (x : ℕ → ℝ) (j : ℕ)
    (h : p.kappa * Real.exp (x j) = demandT p I J cost x j + p.delta) :
    p.kappa * Real.exp ((1 - p.alpha) * x j) - p.delta * Real.exp (-(p.alpha * x j)) =
      access p I cost j / ∑ k ∈ range J, Real.exp (p.alpha * x k) * access p I cost k := by
  rw [demandT_access] at h
  have e1 : Real.exp ((1 - p.alpha) * x j) = Real.exp (x j) * Real.exp (-(p.alpha * x j)) := by rw [← Real.exp_add]; ring_nf
  have e2 : Real.exp (p.alpha * x j) * Real.exp (-(p.alpha * x j)) = 1 := by rw [← Real.exp_add]; simp
  have : p.kappa * Real.exp ((1 - p.alpha) * x j) - p.delta * Real.exp (-(p.alpha * x j)) =
      (p.kappa * Real.exp (x j) - p.delta) * Real.exp (-(p.alpha * x j)) := by rw [e1]; ring
  rw [this, h, add_sub_cancel_right, div_mul_eq_mul_div]
  congr 1
  calc _ = (Real.exp (p.alpha * x j) * Real.exp (-(p.alpha * x j))) * access p I cost j := by ring
    _ = _ := by rw [e2, one_mul]

theorem atRest_total (p : PotParams) {I J : ℕ} (hI : 0 < I) (hJ : 0 < J) (cost : ℕ → ℕ → ℝ) (x : ℕ → ℝ)
    (h : ∀ j < J, p.kappa * Real.exp (x j) = demandT p I J cost x j + p.delta) : p.kappa * ∑ j ∈ range J, Real.exp (x j) = 1 + J * p.delta := by
  rw [mul_sum, sum_congr rfl fun j hj => h j (mem_range.1 hj), sum_add_distrib, demandT_sum p hI hJ, sum_const, card_range, nsmul_eq_mul]

/-- With balances no larger, attractions are no larger; equal totals make them equal. -/
theorem rest_le (p : PotParams) (ha : 0 < p.alpha) (ha1 : p.alpha ≤ 1) (hd : 0 ≤ p.delta) (hk : 0 < p.kappa) (hc : p.alpha < 1 ∨ 0 < p.delta) {I J : ℕ} (hI : 0 < I) (hJ : 0 < J)
    (cost : ℕ → ℕ → ℝ) (x y : ℕ → ℝ) (hx : ∀ j < J, p.kappa * Real.exp (x j) = demandT p I J cost x j + p.delta)
    (hy : ∀ j < J, p.kappa * Real.exp (y j) = demandT p I J cost y j + p.delta)
    (hle : ∑ k ∈ range J, Real.exp (p.alpha * x k) * access p I cost k ≤ ∑ k ∈ range J, Real.exp (p.alpha * y k) * access p I cost k) : ∀ j < J, x j = y j := by
  have hmono := balance_strictMono p ha ha1 hd hk hc
  have h1 : ∀ j ∈ range J, y j ≤ x j := by
    intro j hj
    have hj' := mem_range.1 hj
    refine hmono.le_iff_le.1 ?_
    rw [atRest_balance p I J cost x j (hx j hj'), atRest_balance p I J cost y j (hy j hj')]
    exact div_le_div_of_nonneg_left (access_pos p hI cost j).le (total_pos p hI hJ cost x) hle
  have h2 : ∑ j ∈ range J, Real.exp (y j) = ∑ j ∈ range J, Real.exp (x j) := by
    have := (atRest_total p hI hJ cost y hy).trans (atRest_total p hI hJ cost x hx).symm
    exact mul_left_cancel₀ hk.ne' this
  intro j hj
  have h3 := (sum_eq_sum_iff_of_le fun j hj => Real.exp_le_exp.2 (h1 j hj)).1 h2 j (mem_range.2 hj)
  exact (Real.exp_injective h3).symm

theorem rest_unique (p : PotParams) (ha : 0 < p.alpha) (ha1 : p.alpha ≤ 1) (hd : 0 ≤ p.delta) (hk : 0 < p.kappa) (hc : p.alpha < 1 ∨ 0 < p.delta) {I J : ℕ} (hI : 0 < I)
    (cost : ℕ → ℕ → ℝ) (x y : ℕ → ℝ) (hx : ∀ j < J, p.kappa * Real.exp (x j) = demandT p I J cost x j + p.delta)
    (hy : ∀ j < J, p.kappa * Real.exp (y j) = demandT p I J cost y j + p.delta) : ∀ j < J, x j = y j := by
  intro j hj
  have hJ : 0 < J := by omega
  rcases le_total (∑ k ∈ range J, Real.exp (p.alpha * x k) * access p I cost k) (∑ k ∈ range J, Real.exp (p.alpha * y k) * access p I cost k) with h | h
  · exact rest_le p ha ha1 hd hk hc hI hJ cost x y hx hy h j hj
  · exact (rest_le p ha ha1 hd hk hc hI hJ cost y x hy hx h j hj).symm

theorem demandT_congr (p : PotParams) (I J : ℕ) (cost : ℕ → ℕ → ℝ) (x y : ℕ → ℝ) (h : ∀ j < J, x j = y j) (j : ℕ) (hj : j < J) :
    demandT p I J cost x j = demandT p I J cost y j := by
  rw [demandT_access, demandT_access, h j hj]
  congr 1
  refine sum_congr rfl fun k hk => ?_
  rw [h k (mem_range.1 hk)]

theorem atRest_logs (p : PotParams) (dt : ℝ) (hdt : dt ≠ 0) (he : p.epsilon ≠ 0) (I J : ℕ) (cost : ℕ → ℕ → ℝ) (w : ℕ → ℝ) (h : Spec.AtRest p dt I J cost w) :
    ∀ j < J, p.kappa * Real.exp (Real.log (w j)) = demandT p I J cost (fun k => Real.log (w k)) j + p.delta := by
  intro j hj
  obtain ⟨h1, h2⟩ := (atRest_iff p dt hdt he I J cost w).1 h j hj
  rw [Real.exp_log h1, h2]

theorem vecOf_fin {J : ℕ} (x : Fin J → ℝ) (j : Fin J) : vecOf x j = x j := by
  unfold vecOf
  rw [dif_pos j.2]

theorem vecOf_update {J : ℕ} (x : Fin J → ℝ) (j : Fin J) (t : ℝ) : vecOf (Function.update x j t) = Function.update (vecOf x) (j : ℕ) t := by
  funext k
  unfold vecOf
  by_cases hk : k < J
  · rw [dif_pos hk]
    by_cases h : k = j
    · subst h
      rw [Function.update_self]
      exact (Function.update_self (j : ℕ) t (fun k => if h : k < J then x ⟨k, h⟩ else 0)).symm
    · rw [Function.update_of_ne h, dif_pos hk, Function.update_of_ne]
      intro h2
      exact h (by rw [← h2])
  · have hne : k ≠ (j : ℕ) := by have := j.2; omega
    rw [dif_neg hk, Function.update_of_ne hne, dif_neg hk]

/-- The gradient of the target, over `Fin J`. -/
theorem codeTarget_gradient (p : PotParams) {I J : ℕ} (hI : 0 < I) (ha : p.alpha ≠ 0) (cost : ℕ → ℕ → ℝ) (x : Fin J → ℝ) (j : Fin J) :
    HasDerivAt (fun t => codeTarget p I J cost (Function.update x j t))
      (2 * p.epsilon / p.sigma ^ 2 * (p.kappa * Real.exp (x j) - p.delta - demandT p I J cost (vecOf x) j)) (x j) := by
  have h := C69_gradient p I J cost (vecOf x) j hI j.2 ha
  rw [vecOf_fin] at h
  unfold codeTarget
  simp only [vecOf_update]
  exact h

/-- Stationary points of the target are the points at rest. -/
theorem stationary_iff (p : PotParams) (ha : p.alpha ≠ 0) (he : p.epsilon ≠ 0) (hs : p.sigma ≠ 0) {I J : ℕ} (hI : 0 < I) (cost : ℕ → ℕ → ℝ) (x : Fin J → ℝ) :
    (∀ j, HasDerivAt (fun t => codeTarget p I J cost (Function.update x j t)) 0 (x j)) ↔
      ∀ j < J, p.kappa * Real.exp (vecOf x j) = demandT p I J cost (vecOf x) j + p.delta := by
  have hg : 2 * p.epsilon / p.sigma ^ 2 ≠ 0 := div_ne_zero (mul_ne_zero two_ne_zero he) (pow_ne_zero _ hs)
  constructor
  · intro h j hj
    have h1 := (h ⟨j, hj⟩).unique (codeTarget_gradient p hI ha cost x ⟨j, hj⟩)
    have h2 := (mul_eq_zero.1 h1.symm).resolve_left hg
    have h3 := vecOf_fin x ⟨j, hj⟩
    simp only at h3 h2
    rw [h3]
    linarith
  · intro h j
    have h1 := codeTarget_gradient p hI ha cost x j
    have h2 := h j j.2
    rw [vecOf_fin] at h2
    rw [h2] at h1
    refine h1.congr_deriv ?_
    ring

theorem continuous_codeTarget (p : PotParams) {I J : ℕ} (hI : 0 < I) (hJ : 0 < J) (cost : ℕ → ℕ → ℝ) : Continuous (codeTarget p I J cost) := by
  have : codeTarget p I J cost = fun x : Fin J → ℝ => (-(1 / p.alpha) * Real.log (∑ i : Fin I, ∑ j : Fin J, Real.exp (p.alpha * x j - p.beta * cost i j)) +
      (p.kappa * (∑ j, Real.exp (x j)) - p.delta * ∑ j, x j)) * (2 * p.epsilon / p.sigma ^ 2) := funext fun x => codeTarget_eq p I J cost x
  rw [this]
  have hne : ∀ x : Fin J → ℝ, (∑ i : Fin I, ∑ j : Fin J, Real.exp (p.alpha * x j - p.beta * cost i j)) ≠ 0 := fun x =>
    (sum_pos (fun i _ => sum_pos (fun j _ => Real.exp_pos _) ⟨⟨0, hJ⟩, mem_univ _⟩) ⟨⟨0, hI⟩, mem_univ _⟩).ne'
  have h1 : Continuous fun x : Fin J → ℝ => Real.log (∑ i : Fin I, ∑ j : Fin J, Real.exp (p.alpha * x j - p.beta * cost i j)) :=
    Continuous.log (by fun_prop) hne
  fun_prop

/-- With `δ > 0` the potential has a smallest value. -/
theorem exists_minimum (p : PotParams) (hp : Spec.Admitted p) (hd : 0 < p.delta) {I J : ℕ} (hI : 0 < I) (hJ : 0 < J) (cost : ℕ → ℕ → ℝ) :
    ∃ x : Fin J → ℝ, ∀ y, codeTarget p I J cost x ≤ codeTarget p I J cost y := by
  obtain ⟨ha, _, hk, he, hs⟩ := hp
  set g : ℝ := 2 * p.epsilon / p.sigma ^ 2 with hg
  have hgpos : 0 < g := by positivity
  obtain ⟨C, hC⟩ := lse_upper p.alpha p.beta (p.kappa / 2) ha (by positivity) hI hJ cost
  obtain ⟨C2, hC2⟩ := linear_le_exp (2 * p.delta) (p.kappa / 2) (by positivity) (by positivity)
  -- a single coordinate's contribution is at least a multiple of its size, up to a constant
  have hone : ∀ t : ℝ, p.delta * |t| - max C2 0 ≤ p.kappa / 2 * Real.exp t - p.delta * t := by
    intro t
    have h1 := hC2 t
    have h2 := le_max_left C2 0
    have h3 := le_max_right C2 0
    have h4 : 0 < p.kappa / 2 * Real.exp t := mul_pos (by positivity) (Real.exp_pos t)
    rcases le_total 0 t with h | h
    · rw [abs_of_nonneg h]; linarith
    · rw [abs_of_nonpos h]; linarith
  have hlow : ∀ x : Fin J → ℝ, g * (p.delta * (∑ j, |x j|) - J * max C2 0 - C) ≤ codeTarget p I J cost x := by
    intro x
    rw [codeTarget_eq, ← hg, mul_comm _ g]
    refine mul_le_mul_of_nonneg_left ?_ hgpos.le
    have h1 := hC x
    have h2 : ∑ j, (p.delta * |x j| - max C2 0) ≤ ∑ j, (p.kappa / 2 * Real.exp (x j) - p.delta * x j) := sum_le_sum fun j _ => hone (x j)
    rw [sum_sub_distrib, sum_sub_distrib, ← mul_sum, ← mul_sum, ← mul_sum, sum_const, card_univ, Fintype.card_fin, nsmul_eq_mul] at h2
    have h3 : -(1 / p.alpha) * Real.log (∑ i : Fin I, ∑ j : Fin J, Real.exp (p.alpha * x j - p.beta * cost i j)) =
      -(1 / p.alpha * Real.log (∑ i : Fin I, ∑ j : Fin J, Real.exp (p.alpha * x j - p.beta * cost i j))) := by ring
    rw [h3]
    linarith
  have hnorm : ∀ x : Fin J → ℝ, ‖x‖ ≤ ∑ j, |x j| := by
    intro x
    refine (pi_norm_le_iff_of_nonneg (sum_nonneg fun _ _ => abs_nonneg _)).2 fun j => ?_
    rw [Real.norm_eq_abs]
    exact single_le_sum (f := fun j => |x j|) (fun _ _ => abs_nonneg _) (mem_univ j)
  refine (continuous_codeTarget p hI hJ cost).exists_forall_le ?_
  refine Filter.tendsto_atTop_mono (f := fun x : Fin J → ℝ => g * p.delta * ‖x‖ + g * (-(J * max C2 0) - C)) (fun x => ?_) ?_
  · refine le_trans ?_ (hlow x)
    have h := mul_le_mul_of_nonneg_left (hnorm x) (mul_pos hgpos hd).le
    linarith
  · exact Filter.tendsto_atTop_add_const_right _ _ (Filter.Tendsto.const_mul_atTop (by positivity) (tendsto_norm_cocompact_atTop))

theorem minimum_stationary (p : PotParams) {I J : ℕ} (hI : 0 < I) (ha : p.alpha ≠ 0) (cost : ℕ → ℕ → ℝ) (x : Fin J → ℝ)
    (hx : ∀ y, codeTarget p I J cost x ≤ codeTarget p I J cost y) (j : Fin J) : HasDerivAt (fun t => codeTarget p I J cost (Function.update x j t)) 0 (x j) := by
  have h := codeTarget_gradient p hI ha cost x j
  have hmin : IsLocalMin (fun t => codeTarget p I J cost (Function.update x j t)) (x j) := by
    refine Filter.Eventually.of_forall fun t => ?_
    beta_reduce
    rw [Function.update_eq_self]
    exact hx _
  rw [← hmin.hasDerivAt_eq_zero h]
  exact h


/-- The second derivatives of the target. -/
noncomputable def targetHessian (p : PotParams) (I J : ℕ) (cost : ℕ → ℕ → ℝ) (x : Fin J → ℝ) (i j : Fin J) : ℝ :=
  2 * p.epsilon / p.sigma ^ 2 * ((if i = j then p.kappa * Real.exp (x i) - p.alpha * demandT p I J cost (vecOf x) i else 0) +
    p.alpha * demandT p I J cost (vecOf x) i * demandT p I J cost (vecOf x) j)

theorem hasDerivAt_access (p : PotParams) (c : ℝ) (v : ℝ) : HasDerivAt (fun t => Real.exp (p.alpha * t) * c) (p.alpha * (Real.exp (p.alpha * v) * c)) v := by
  have h1 : HasDerivAt (fun t : ℝ => p.alpha * t) p.alpha v := by simpa using (hasDerivAt_id v).const_mul p.alpha
  refine (h1.exp.mul_const c).congr_deriv ?_
  ring

theorem hasDerivAt_total (p : PotParams) (I J : ℕ) (cost : ℕ → ℕ → ℝ) (x : ℕ → ℝ) (j : ℕ) (hj : j < J) :
    HasDerivAt (fun t => ∑ k ∈ range J, Real.exp (p.alpha * Function.update x j t k) * access p I cost k) (p.alpha * (Real.exp (p.alpha * x j) * access p I cost j)) (x j) := by
  have h : ∀ k ∈ range J, HasDerivAt (fun t => Real.exp (p.alpha * Function.update x j t k) * access p I cost k)
      (if k = j then p.alpha * (Real.exp (p.alpha * x j) * access p I cost j) else 0) (x j) := by
    intro k _
    by_cases hk : k = j
    · subst hk
      rw [if_pos rfl]
      simp only [Function.update_self]
      exact hasDerivAt_access p _ _
    · rw [if_neg hk]
      simp only [Function.update_of_ne hk]
      exact hasDerivAt_const _ _
  refine (HasDerivAt.fun_sum h).congr_deriv ?_
  rw [sum_ite_eq' (range J) j, if_pos (mem_range.2 hj)]

theorem hasDerivAt_demandT (p : PotParams) {I J : ℕ} (hI : 0 < I) (cost : ℕ → ℕ → ℝ) (x : ℕ → ℝ) (i j : ℕ) (hj : j < J) :
    HasDerivAt (fun t => demandT p I J cost (Function.update x j t) i)
      ((if i = j then p.alpha * demandT p I J cost x i else 0) - p.alpha * demandT p I J cost x i * demandT p I J cost x j) (x j) := by
  have hZ := (total_pos p hI (by omega : 0 < J) cost x).ne'
  simp only [demandT_access]
  have h2 := hasDerivAt_total p I J cost x j hj
  have hZ' : (∑ k ∈ range J, Real.exp (p.alpha * Function.update x j (x j) k) * access p I cost k) ≠ 0 := by rwa [Function.update_eq_self]
  have h1 : HasDerivAt (fun t => Real.exp (p.alpha * Function.update x j t i) * access p I cost i)
      (if i = j then p.alpha * (Real.exp (p.alpha * x i) * access p I cost i) else 0) (x j) := by
    by_cases hij : i = j
    · subst hij
      rw [if_pos rfl]
      simp only [Function.update_self]
      exact hasDerivAt_access p _ _
    · rw [if_neg hij]
      simp only [Function.update_of_ne hij]
      exact hasDerivAt_const _ _
  refine (h1.fun_div h2 hZ').congr_deriv ?_
  rw [Function.update_eq_self]
  by_cases hij : i = j
  · subst hij
    rw [if_pos rfl, if_pos rfl]
    field_simp
  · rw [if_neg hij, if_neg hij]
    field_simp
    ring

/-- The quadratic form of the Hessian. -/
theorem targetHessian_form (p : PotParams) (I J : ℕ) (cost : ℕ → ℕ → ℝ) (x v : Fin J → ℝ) :
    ∑ i, ∑ j, v i * targetHessian p I J cost x i j * v j = 2 * p.epsilon / p.sigma ^ 2 *
      ((∑ i, (p.kappa * Real.exp (x i) - p.alpha * demandT p I J cost (vecOf x) i) * v i ^ 2) + p.alpha * (∑ i : Fin J, demandT p I J cost (vecOf x) i * v i) ^ 2) := by
  unfold targetHessian
  have h : ∀ i j : Fin J, v i * (2 * p.epsilon / p.sigma ^ 2 * ((if i = j then p.kappa * Real.exp (x i) - p.alpha * demandT p I J cost (vecOf x) i else 0) +
      p.alpha * demandT p I J cost (vecOf x) i * demandT p I J cost (vecOf x) j)) * v j =
      2 * p.epsilon / p.sigma ^ 2 * (if i = j then (p.kappa * Real.exp (x i) - p.alpha * demandT p I J cost (vecOf x) i) * v i ^ 2 else 0) +
        2 * p.epsilon / p.sigma ^ 2 * p.alpha * ((demandT p I J cost (vecOf x) i * v i) * (demandT p I J cost (vecOf x) j * v j)) := by
    intro i j
    by_cases hij : i = j
    · subst hij
      rw [if_pos rfl, if_pos rfl]
      ring
    · rw [if_neg hij, if_neg hij]
      ring
  simp only [h, sum_add_distrib, ← mul_sum, sum_ite_eq, mem_univ, if_true]
  rw [← sum_mul]
  ring

theorem isHessian_unique {J : ℕ} (V : (Fin J → ℝ) → ℝ) (h1 h2 : (Fin J → ℝ) → Matrix (Fin J) (Fin J) ℝ) (k1 : Spec.IsHessian V h1) (k2 : Spec.IsHessian V h2) : h1 = h2 := by
  obtain ⟨g1, a1, b1⟩ := k1
  obtain ⟨g2, a2, b2⟩ := k2
  have hg : g1 = g2 := by
    funext x j
    exact (a1 x j).unique (a2 x j)
  subst hg
  funext x i j
  exact (b1 x i j).unique (b2 x i j)

/-! ### Theorems -/

/-- **C188 (one equilibrium).**  With `alpha < 1`, or `alpha = 1` and `delta > 0`, two attraction vectors that the noise-free simulation leaves alone are the same. -/
theorem C188_unique (p : PotParams) (hp : Spec.Admitted p) (ha1 : p.alpha ≤ 1) (hc : p.alpha < 1 ∨ 0 < p.delta) (dt : ℝ) (hdt : dt ≠ 0) {I J : ℕ} (hI : 0 < I) (cost : ℕ → ℕ → ℝ)
    (w w' : ℕ → ℝ) (hw : Spec.AtRest p dt I J cost w) (hw' : Spec.AtRest p dt I J cost w') : ∀ j < J, w j = w' j := by
  obtain ⟨ha, hd, hk, he, hs⟩ := hp
  intro j hj
  have h := rest_unique p ha ha1 hd hk hc hI cost _ _ (atRest_logs p dt hdt he.ne' I J cost w hw) (atRest_logs p dt hdt he.ne' I J cost w' hw') j hj
  exact Real.log_injOn_pos (hw j hj).1 (hw' j hj).1 h

/-- **C188 (an equilibrium).**  With `delta > 0` there is one, for every `alpha` and `beta` and all costs: the attractions where the potential is smallest. -/
theorem C188_exists (p : PotParams) (hp : Spec.Admitted p) (hd : 0 < p.delta) (dt : ℝ) (hdt : dt ≠ 0) {I J : ℕ} (hI : 0 < I) (hJ : 0 < J) (cost : ℕ → ℕ → ℝ) :
    ∃ x : Fin J → ℝ, (∀ y, codeTarget p I J cost x ≤ codeTarget p I J cost y) ∧ Spec.AtRest p dt I J cost fun k => Real.exp (vecOf x k) := by
  obtain ⟨x, hx⟩ := exists_minimum p hp hd hI hJ cost
  obtain ⟨ha, _, hk, he, hs⟩ := hp
  refine ⟨x, hx, ?_⟩
  rw [atRest_iff p dt hdt he.ne']
  intro j hj
  refine ⟨Real.exp_pos _, ?_⟩
  simp only [Real.log_exp]
  exact (stationary_iff p ha.ne' he.ne' hs.ne' hI cost x).1 (fun j => minimum_stationary p hI ha.ne' cost x hx j) j hj

/-- **C188 (where the simulation rests is where the potential is smallest).** -/
theorem C188_minimum (p : PotParams) (hp : Spec.Admitted p) (hd : 0 < p.delta) (ha1 : p.alpha ≤ 1) (dt : ℝ) (hdt : dt ≠ 0) {I J : ℕ} (hI : 0 < I) (hJ : 0 < J) (cost : ℕ → ℕ → ℝ)
    (w : ℕ → ℝ) (hw : Spec.AtRest p dt I J cost w) (y : Fin J → ℝ) : codeTarget p I J cost (fun j => Real.log (w j)) ≤ codeTarget p I J cost y := by
  obtain ⟨x, hx, hr⟩ := C188_exists p hp hd dt hdt hI hJ cost
  have h := C188_unique p hp ha1 (Or.inr hd) dt hdt hI cost _ _ hw hr
  have : (fun j : Fin J => Real.log (w j)) = x := by
    funext j
    rw [h j j.2]
    simp only [Real.log_exp, vecOf_fin]
  rw [this]
  exact hx y

/-- **C188 (curvature).**  The second derivatives: `2ε/σ²` times the diagonal of `κ·attraction - α·demand` plus `α` times the products of the demands. -/
theorem C188_hessian (p : PotParams) {I J : ℕ} (hI : 0 < I) (ha : p.alpha ≠ 0) (cost : ℕ → ℕ → ℝ) : Spec.IsHessian (codeTarget p I J cost) (targetHessian p I J cost) := by
  refine ⟨fun x j => 2 * p.epsilon / p.sigma ^ 2 * (p.kappa * Real.exp (x j) - p.delta - demandT p I J cost (vecOf x) j), fun x j => codeTarget_gradient p hI ha cost x j, fun x i j => ?_⟩
  have h1 := hasDerivAt_demandT p hI cost (vecOf x) i j j.2
  rw [vecOf_fin] at h1
  simp only [← vecOf_update] at h1
  have h2 : HasDerivAt (fun t => p.kappa * Real.exp (Function.update x j t i)) (if i = j then p.kappa * Real.exp (x i) else 0) (x j) := by
    by_cases hij : i = j
    · subst hij
      rw [if_pos rfl]
      simp only [Function.update_self]
      exact (Real.hasDerivAt_exp _).const_mul _
    · rw [if_neg hij]
      simp only [Function.update_of_ne hij]
      exact hasDerivAt_const _ _
  refine (((h2.sub_const p.delta).fun_sub h1).const_mul (2 * p.epsilon / p.sigma ^ 2)).congr_deriv ?_
  unfold targetHessian
  by_cases hij : i = j
  · subst hij
    simp only [if_true]
    ring
  · simp only [if_neg hij, Fin.val_inj]
    ring

/-- **C188 (positive curvature).**  For `alpha ≤ 1` and `delta > 0`, the Hessian where the gradient vanishes is positive definite. -/
theorem C188_positive (p : PotParams) (hp : Spec.Admitted p) (hd : 0 < p.delta) (ha1 : p.alpha ≤ 1) {I J : ℕ} (hI : 0 < I) (cost : ℕ → ℕ → ℝ)
    (hess : (Fin J → ℝ) → Matrix (Fin J) (Fin J) ℝ) (hh : Spec.IsHessian (codeTarget p I J cost) hess) (x : Fin J → ℝ)
    (hx : ∀ j, HasDerivAt (fun t => codeTarget p I J cost (Function.update x j t)) 0 (x j)) : Spec.PositiveDefinite (hess x) := by
  obtain ⟨ha, _, hk, he, hs⟩ := hp
  rw [isHessian_unique _ _ _ hh (C188_hessian p hI ha.ne' cost)]
  constructor
  · intro i j
    unfold targetHessian
    by_cases hij : i = j
    · subst hij; rfl
    · rw [if_neg hij, if_neg (Ne.symm hij)]
      ring
  · intro v hv
    obtain ⟨i0, hi0⟩ := Function.ne_iff.1 hv
    rw [targetHessian_form]
    have hst := (stationary_iff p ha.ne' he.ne' hs.ne' hI cost x).1 hx
    have hJ : 0 < J := i0.pos
    have h1 : ∀ i : Fin J, p.delta * v i ^ 2 ≤ (p.kappa * Real.exp (x i) - p.alpha * demandT p I J cost (vecOf x) i) * v i ^ 2 := by
      intro i
      refine mul_le_mul_of_nonneg_right ?_ (sq_nonneg _)
      have h2 := hst i i.2
      rw [vecOf_fin] at h2
      rw [h2]
      have h3 := mul_le_mul_of_nonneg_right ha1 (demandT_pos p hI hJ cost (vecOf x) i).le
      linarith
    have h2 : ∑ i, p.delta * v i ^ 2 ≤ ∑ i : Fin J, (p.kappa * Real.exp (x i) - p.alpha * demandT p I J cost (vecOf x) i) * v i ^ 2 := sum_le_sum fun i _ => h1 i
    have h3 : 0 < ∑ i, p.delta * v i ^ 2 :=
      sum_pos' (fun i _ => mul_nonneg hd.le (sq_nonneg _)) ⟨i0, mem_univ _, mul_pos hd (by have : v i0 ≠ 0 := hi0; positivity)⟩
    have h4 : 0 ≤ p.alpha * (∑ i : Fin J, demandT p I J cost (vecOf x) i * v i) ^ 2 := mul_nonneg ha.le (sq_nonneg _)
    exact mul_pos (by positivity) (by linarith)

theorem firstArgmin_some : ∀ fs : List ℝ, fs ≠ [] → ∃ q, firstArgmin fs = some q := by
  intro fs h
  cases fs with
  | nil => exact absurd rfl h
  | cons f fs =>
    simp only [firstArgmin]
    cases firstArgmin fs with
    | none => exact ⟨_, rfl⟩
    | some q =>
      obtain ⟨k, v⟩ := q
      by_cases hv : v < f
      · exact ⟨(k + 1, v), if_pos hv⟩
      · exact ⟨(0, f), if_neg hv⟩

/-- **C188 (the saddle-point value exists).**  For `alpha ≤ 1` and `delta > 0`, if the optimiser always ends where the gradient vanishes, then all its starts lead to one point, where the potential is
smallest, the factorisation succeeds, and the value belongs to that point. -/
theorem C188_saddle (p : PotParams) (hp : Spec.Admitted p) (hd : 0 < p.delta) (ha1 : p.alpha ≤ 1) {I J : ℕ} (hI : 0 < I) (hJ : 0 < J) (cost : ℕ → ℕ → ℝ)
    (hess : (Fin J → ℝ) → Matrix (Fin J) (Fin J) ℝ) (hh : Spec.IsHessian (codeTarget p I J cost) hess)
    (chol : Matrix (Fin J) (Fin J) ℝ → Option (Matrix (Fin J) (Fin J) ℝ)) (hs : Spec.CholeskySound chol) (hcc : Spec.CholeskyComplete chol)
    (opt : (Fin J → ℝ) → Option (Fin J → ℝ)) (ho : Spec.FindsStationary (codeTarget p I J cost) opt) :
    ∃ x : Fin J → ℝ, (∀ s, opt s = some x) ∧ (∀ y, codeTarget p I J cost x ≤ codeTarget p I J cost y) ∧
      biasedZInverse p.delta opt (codeTarget p I J cost) hess chol = some (codeTarget p I J cost x + Real.log (hess x).det / 2, 1) := by
  obtain ⟨x, hx⟩ := exists_minimum p hp hd hI hJ cost
  have hadm := hp
  obtain ⟨ha, hd0, hk, he, hsig⟩ := hp
  have hopt : ∀ s, opt s = some x := by
    intro s
    obtain ⟨y, hy, hst⟩ := ho s
    have h := rest_unique p ha ha1 hd0 hk (Or.inr hd) hI cost _ _ ((stationary_iff p ha.ne' he.ne' hsig.ne' hI cost y).1 hst)
      ((stationary_iff p ha.ne' he.ne' hsig.ne' hI cost x).1 fun j => minimum_stationary p hI ha.ne' cost x hx j)
    have hyx : y = x := by
      funext j
      have := h j j.2
      rwa [vecOf_fin, vecOf_fin] at this
    rw [hy, hyx]
  refine ⟨x, hopt, hx, ?_⟩
  obtain ⟨L, hL⟩ := hcc _ (C188_positive p hadm hd ha1 hI cost hess hh x fun j => minimum_stationary p hI ha.ne' cost x hx j)
  have hm : ∀ l : List (Fin J), l.mapM (fun i => opt (saddleStart p.delta i)) = some (l.map fun _ => x) := by
    intro l
    induction l with
    | nil => rfl
    | cons a l ih => rw [List.mapM_cons, hopt, ih]; rfl
  have hne : ((List.finRange J).map fun _ => x).map (codeTarget p I J cost) ≠ [] := by
    intro h
    have := congrArg List.length h
    simp at this
    omega
  obtain ⟨⟨k, f⟩, hq⟩ := firstArgmin_some _ hne
  obtain ⟨h1, h2, h3⟩ := firstArgmin_spec _ _ _ hq
  have hkx : ((List.finRange J).map fun _ => x)[k]? = some x := by
    have hk1 := (List.getElem?_eq_some_iff.1 h1).1
    rw [List.length_map] at hk1
    rw [List.getElem?_eq_getElem hk1]
    simp
  have hex : ∃ v, biasedZInverse p.delta opt (codeTarget p I J cost) hess chol = some (v, 1) := by
    unfold biasedZInverse
    rw [hm]
    refine ⟨f + ∑ j, Real.log (L j j), ?_⟩
    simp only [Option.bind_eq_bind, Option.bind_some, hq, hkx, hL, Option.pure_def]
  obtain ⟨v, hv⟩ := hex
  obtain ⟨_, i, x', hx', _, _, hval⟩ := C153_value p.delta opt _ hess chol hs v 1 hv
  rw [hopt] at hx'
  cases hx'
  rw [hv, hval]

/-! ### Examples and the case `alpha > 1` -/

/-- Two destinations, `alpha = 2`. -/
noncomputable def demoSteep : PotParams := { alpha := 2, beta := 0, delta := 2 / 5, kappa := 1, sigma := 1, epsilon := 1 }

/-- Two given attractions. -/
noncomputable def pairOf (a b : ℝ) (k : ℕ) : ℝ := if k = 0 then a else b

theorem demoSteep_demand (a b : ℝ) (ha : 0 < a) (hb : 0 < b) (j : ℕ) :
    demandT demoSteep 2 2 (fun _ _ => 0) (fun k => Real.log (pairOf a b k)) j = pairOf a b j ^ 2 / (a ^ 2 + b ^ 2) := by
  have hsq : ∀ c : ℝ, 0 < c → Real.exp (2 * Real.log c) = c ^ 2 := by
    intro c hc
    rw [two_mul, Real.exp_add, Real.exp_log hc]
    ring
  have hp : 0 < pairOf a b j := by unfold pairOf; split_ifs <;> assumption
  rw [demandT_access]
  simp only [access, demoSteep, sum_range_succ, sum_range_zero, zero_add, zero_mul, neg_zero, Real.exp_zero, hsq _ hp]
  rw [show pairOf a b 0 = a from rfl, show pairOf a b 1 = b from rfl, hsq _ ha, hsq _ hb, ← add_mul, mul_div_mul_right _ _ (by norm_num)]

theorem demoSteep_rest (a b : ℝ) (ha : 0 < a) (hb : 0 < b) (h1 : a = a ^ 2 / (a ^ 2 + b ^ 2) + 2 / 5) (h2 : b = b ^ 2 / (a ^ 2 + b ^ 2) + 2 / 5) :
    Spec.AtRest demoSteep 1 2 2 (fun _ _ => 0) (pairOf a b) := by
  rw [atRest_iff demoSteep 1 one_ne_zero (by norm_num [demoSteep])]
  intro j hj
  rw [demoSteep_demand a b ha hb]
  have hk : demoSteep.kappa = 1 := rfl
  have hd : demoSteep.delta = 2 / 5 := rfl
  rw [hk, hd, one_mul]
  rcases (by omega : j = 0 ∨ j = 1) with rfl | rfl
  · exact ⟨ha, h1⟩
  · exact ⟨hb, h2⟩

/-- **C188 is false for `alpha > 1`**: three equilibria, one of them no minimum. -/
theorem C188_false : ∃ p : PotParams, Spec.Admitted p ∧ 0 < p.delta ∧
    Spec.AtRest p 1 2 2 (fun _ _ => 0) (pairOf (3 / 5) (6 / 5)) ∧ Spec.AtRest p 1 2 2 (fun _ _ => 0) (pairOf (6 / 5) (3 / 5)) ∧
    Spec.AtRest p 1 2 2 (fun _ _ => 0) (pairOf (9 / 10) (9 / 10)) ∧
    ∀ hess, Spec.IsHessian (codeTarget p 2 2 fun _ _ => 0) hess → ¬ Spec.PositiveDefinite (hess fun _ => Real.log (9 / 10)) := by
  refine ⟨demoSteep, ⟨by norm_num [demoSteep], by norm_num [demoSteep], by norm_num [demoSteep], by norm_num [demoSteep], by norm_num [demoSteep]⟩, by norm_num [demoSteep],
    demoSteep_rest _ _ (by norm_num) (by norm_num) (by norm_num) (by norm_num), demoSteep_rest _ _ (by norm_num) (by norm_num) (by norm_num) (by norm_num),
    demoSteep_rest _ _ (by norm_num) (by norm_num) (by norm_num) (by norm_num), ?_⟩
  intro hess hh hpos
  rw [isHessian_unique _ _ _ hh (C188_hessian demoSteep two_pos (by norm_num [demoSteep]) _)] at hpos
  have h := hpos.2 (fun i => if i = 0 then 1 else -1) (fun h => by have := congrFun h 0; simp at this)
  rw [targetHessian_form] at h
  have hv : ∀ j, j < 2 → demandT demoSteep 2 2 (fun _ _ => 0) (vecOf fun _ : Fin 2 => Real.log (9 / 10)) j = 1 / 2 := by
    intro j hj
    rw [demandT_congr demoSteep 2 2 _ _ (fun k => Real.log (pairOf (9 / 10) (9 / 10) k)) ?_ j hj, demoSteep_demand _ _ (by norm_num) (by norm_num)]
    · unfold pairOf
      split_ifs <;> norm_num
    · intro k hk
      rw [show k = ((⟨k, hk⟩ : Fin 2) : ℕ) from rfl, vecOf_fin]
      unfold pairOf
      split_ifs <;> rfl
  simp only [Fin.sum_univ_two, Real.exp_log (show (0 : ℝ) < 9 / 10 by norm_num)] at h
  rw [hv _ (Fin.is_lt 0), hv _ (Fin.is_lt 1)] at h
  norm_num [demoSteep] at h

/-- `alpha = 1`, `delta = 1`, two destinations: the equilibrium is `3/2` for both. -/
noncomputable def demoFlat : PotParams := { alpha := 1, beta := 0, delta := 1, kappa := 1, sigma := 1, epsilon := 1 }

theorem demoFlat_admitted : Spec.Admitted demoFlat := ⟨by norm_num [demoFlat], by norm_num [demoFlat], by norm_num [demoFlat], by norm_num [demoFlat], by norm_num [demoFlat]⟩

theorem demoFlat_rest : Spec.AtRest demoFlat 1 2 2 (fun _ _ => 0) fun _ => 3 / 2 := by
  rw [atRest_iff demoFlat 1 one_ne_zero (by norm_num [demoFlat])]
  intro j hj
  refine ⟨by norm_num, ?_⟩
  rw [demandT_access]
  norm_num [access, demoFlat, sum_range_succ, Real.exp_log]

example (w : ℕ → ℝ) (hw : Spec.AtRest demoFlat 1 2 2 (fun _ _ => 0) w) : w 0 = 3 / 2 :=
  C188_unique demoFlat demoFlat_admitted le_rfl (Or.inr (by norm_num [demoFlat])) 1 one_ne_zero two_pos _ w _ hw demoFlat_rest 0 (by norm_num)

example (y : Fin 2 → ℝ) : codeTarget demoFlat 2 2 (fun _ _ => 0) (fun _ => Real.log (3 / 2)) ≤ codeTarget demoFlat 2 2 (fun _ _ => 0) y :=
  C188_minimum demoFlat demoFlat_admitted (by norm_num [demoFlat]) le_rfl 1 one_ne_zero two_pos (by norm_num) _ _ demoFlat_rest y

/-- An optimiser as in `C188_saddle` exists: the constant one. -/
example : ∃ opt, Spec.FindsStationary (codeTarget demoFlat 2 2 fun _ _ => 0) opt := by
  obtain ⟨x, hx⟩ := exists_minimum demoFlat demoFlat_admitted (by norm_num [demoFlat]) two_pos (by norm_num : 0 < 2) fun _ _ => 0
  exact ⟨fun _ => some x, fun _ => ⟨x, rfl, fun j => minimum_stationary demoFlat two_pos (by norm_num [demoFlat]) _ x hx j⟩⟩

end GeNSIT
