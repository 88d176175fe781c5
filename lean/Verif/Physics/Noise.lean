import Mathlib.Analysis.SpecialFunctions.Log.Basic
import Mathlib.Analysis.SpecialFunctions.Log.Deriv
import Mathlib.Analysis.Calculus.Deriv.Pow
import Mathlib.Algebra.BigOperators.Fin
import Mathlib.Algebra.BigOperators.Field
import Mathlib.Tactic.Ring
import Mathlib.Tactic.Linarith
import Mathlib.Tactic.Positivity
import Mathlib.Tactic.FieldSimp
import Mathlib.Tactic.NormNum

/-!
# Property theorem C182 (observation noise)

`HarrisWilson.obs_noise_percentage_to_var`, `negative_destination_attraction_log_likelihood`, `…_gradient`, `…_and_gradient` and
`dest_attraction_ts_likelihood_loss` (`/repo/gensit/physics_models/HarrisWilsonModel.py:150-161`, `:226-308`): how far predicted destination attractions are from the observed ones,
measured in units of the observation noise.  The samplers call `…_and_gradient` with `noise_percentage = 1/configured` (`HarrisWilsonModel_MCMC.py:859`, `:910`, `:1001`, `:1080`); the
loss of the neural network is `dest_attraction_ts_likelihood_loss`.

Arithmetic is exact; a quotient with denominator zero is `none` (infinite or NaN).  `ι` indexes destinations and times of the observed series.
-/

open scoped BigOperators

namespace GeNSIT

variable {ι : Type} [Fintype ι]

/-- `obs_noise_percentage_to_var` (`HarrisWilsonModel.py:150-161`) for `J` destinations. -/
noncomputable def noiseVarOf (J : ℕ) (percentage : ℝ) : ℝ := (percentage / 100 * Real.log J) ^ 2

/-- `1. / v`. -/
noncomputable def invOpt (v : ℝ) : Option ℝ := if v = 0 then none else some (1 / v)

/-- `diff.dot(diff)` (`HarrisWilsonModel.py:262-264`). -/
noncomputable def sqDiff (pred obs : ι → ℝ) : ℝ := ∑ k, (pred k - obs k) * (pred k - obs k)

/-- `negative_destination_attraction_log_likelihood` (`HarrisWilsonModel.py:245-277`): the argument `noise_percentage`, if given, replaces the configured one. -/
noncomputable def attractionNll (J : ℕ) (configured : ℝ) (argument : Option ℝ) (pred obs : ι → ℝ) : Option ℝ :=
  (invOpt (match argument with
    | some q => noiseVarOf J q
    | none => noiseVarOf J configured)).map fun w => 0.5 * w * sqDiff pred obs

/-- `negative_destination_attraction_log_likelihood_and_gradient` (`HarrisWilsonModel.py:226-242`): the argument is not looked at. -/
noncomputable def attractionNllAndGrad (J : ℕ) (configured : ℝ) (_argument : Option ℝ) (pred obs : ι → ℝ) : Option (ℝ × (ι → ℝ)) :=
  (invOpt (noiseVarOf J configured)).map fun w => (0.5 * w * sqDiff pred obs, fun k => w * (pred k - obs k))

/-- `dest_attraction_ts_likelihood_loss` (`HarrisWilsonModel.py:297-308`): attractions, not their logarithms, are given. -/
noncomputable def attractionLoss (J : ℕ) (configured : ℝ) (argument : Option ℝ) (pred obs : ι → ℝ) : Option ℝ :=
  attractionNll J configured argument (fun k => Real.log (pred k)) fun k => Real.log (obs k)

/-! ### Specification -/

/-- The negative logarithm, up to a constant, of the Gaussian density of observations with standard deviation `sd` around predictions. -/
noncomputable def Spec.gaussianNll (sd : ℝ) (pred obs : ι → ℝ) : ℝ := (∑ k, ((obs k - pred k) / sd) ^ 2) / 2

/-! ### Lemmas -/

theorem noiseVar_pos {J : ℕ} (hJ : 2 ≤ J) {q : ℝ} (hq : q ≠ 0) : 0 < noiseVarOf J q := by
  have hl : 0 < Real.log J := Real.log_pos (by exact_mod_cast hJ)
  unfold noiseVarOf
  have : q / 100 * Real.log J ≠ 0 := mul_ne_zero (div_ne_zero hq (by norm_num)) hl.ne'
  positivity

theorem gaussian_eq (sd : ℝ) (pred obs : ι → ℝ) : Spec.gaussianNll sd pred obs = 0.5 * (1 / sd ^ 2) * sqDiff pred obs := by
  unfold Spec.gaussianNll sqDiff
  rw [Finset.mul_sum, Finset.sum_div]
  refine Finset.sum_congr rfl fun k _ => ?_
  rw [div_pow]
  by_cases h : sd ^ 2 = 0
  · rw [h]; simp
  · field_simp
    ring

/-! ### Theorems -/

/-- **C182 (noise level).**  A noise percentage `q` stands for a standard deviation of `q` percent of the logarithm of the number of destinations; the likelihood is the Gaussian one with
it, for the percentage given as argument or else for the configured one. -/
theorem C182_likelihood (J : ℕ) (hJ : 2 ≤ J) (configured : ℝ) (argument : Option ℝ) (pred obs : ι → ℝ) (hq : argument.getD configured ≠ 0) :
    attractionNll J configured argument pred obs = some (Spec.gaussianNll (argument.getD configured / 100 * Real.log J) pred obs) := by
  rw [gaussian_eq]
  have h := noiseVar_pos hJ hq
  cases argument with
  | none =>
    simp only [attractionNll, invOpt, Option.getD_none] at h ⊢
    rw [if_neg h.ne']
    rfl
  | some q =>
    simp only [attractionNll, invOpt, Option.getD_some] at h ⊢
    rw [if_neg h.ne']
    rfl

/-- **C182 (gradient).**  What the samplers use is the likelihood for the *configured* noise and its gradient … -/
theorem C182_gradient [DecidableEq ι] (J : ℕ) (hJ : 2 ≤ J) (configured : ℝ) (argument : Option ℝ) (pred obs : ι → ℝ) (hq : configured ≠ 0) :
    ∃ g, attractionNllAndGrad J configured argument pred obs = some (Spec.gaussianNll (configured / 100 * Real.log J) pred obs, g) ∧
      ∀ k, HasDerivAt (fun v => Spec.gaussianNll (configured / 100 * Real.log J) (Function.update pred k v) obs) (g k) (pred k) := by
  have h := noiseVar_pos hJ hq
  refine ⟨fun k => 1 / noiseVarOf J configured * (pred k - obs k), ?_, fun k => ?_⟩
  · simp only [attractionNllAndGrad, invOpt]
    rw [if_neg h.ne', gaussian_eq]
    rfl
  · have e : (fun v => Spec.gaussianNll (configured / 100 * Real.log J) (Function.update pred k v) obs) = fun v =>
        0.5 * (1 / noiseVarOf J configured) * ((v - obs k) * (v - obs k) + ∑ j ∈ Finset.univ.erase k, (pred j - obs j) * (pred j - obs j)) := by
      funext v
      rw [gaussian_eq]
      unfold sqDiff
      rw [← Finset.add_sum_erase _ _ (Finset.mem_univ k), Function.update_self]
      congr 2
      refine Finset.sum_congr rfl fun j hj => ?_
      rw [Function.update_of_ne (Finset.ne_of_mem_erase hj)]
    rw [e]
    have h1 : HasDerivAt (fun v : ℝ => v - obs k) 1 (pred k) := (hasDerivAt_id _).sub_const _
    have h2 := ((h1.mul h1).add_const (∑ j ∈ Finset.univ.erase k, (pred j - obs j) * (pred j - obs j))).const_mul (0.5 * (1 / noiseVarOf J configured))
    refine h2.congr_deriv ?_
    ring

/-- … whatever is passed as `noise_percentage`, such as the inverse that the samplers pass. -/
theorem C182_argument_ignored (J : ℕ) (configured : ℝ) (a b : Option ℝ) (pred obs : ι → ℝ) :
    attractionNllAndGrad J configured a pred obs = attractionNllAndGrad J configured b pred obs := rfl

/-- "Both functions give the same likelihood for the same arguments" is false, already for the arguments of the samplers. -/
theorem C182_same_false : ¬ ∀ (J : ℕ) (configured : ℝ) (pred obs : Fin 2 → ℝ), 2 ≤ J → 0 < configured →
    (attractionNllAndGrad J configured (some (1 / configured)) pred obs).map Prod.fst = attractionNll J configured (some (1 / configured)) pred obs := by
  intro h
  have h1 := h 2 2 (fun _ => 1) (fun _ => 0) le_rfl (by norm_num)
  obtain ⟨g, hg, _⟩ := C182_gradient 2 le_rfl 2 (some (1 / 2)) (fun _ : Fin 2 => (1 : ℝ)) (fun _ => 0) (by norm_num)
  rw [hg, C182_likelihood 2 le_rfl 2 (some (1 / 2)) (fun _ : Fin 2 => (1 : ℝ)) (fun _ => 0) (by norm_num)] at h1
  simp only [Option.map_some, Option.some.injEq, Option.getD_some] at h1
  rw [gaussian_eq, gaussian_eq] at h1
  have hl : 0 < Real.log 2 := Real.log_pos (by norm_num)
  have hs : sqDiff (fun _ : Fin 2 => (1 : ℝ)) (fun _ => 0) = 2 := by
    simp [sqDiff]
  rw [hs] at h1
  push_cast at h1
  have hne : (Real.log 2) ^ 2 ≠ 0 := by positivity
  rw [mul_pow, mul_pow] at h1
  field_simp at h1
  norm_num at h1

/-- **C182 (the loss).**  For positive attractions the loss is never negative, and zero exactly when prediction and observation agree everywhere. -/
theorem C182_loss (J : ℕ) (hJ : 2 ≤ J) (configured : ℝ) (argument : Option ℝ) (pred obs : ι → ℝ) (hq : argument.getD configured ≠ 0) (hp : ∀ k, 0 < pred k)
    (ho : ∀ k, 0 < obs k) : ∃ l, attractionLoss J configured argument pred obs = some l ∧ 0 ≤ l ∧ (l = 0 ↔ pred = obs) := by
  refine ⟨_, C182_likelihood J hJ configured argument _ _ hq, ?_, ?_⟩
  · unfold Spec.gaussianNll
    exact div_nonneg (Finset.sum_nonneg fun k _ => sq_nonneg _) (by norm_num)
  · have hl : 0 < Real.log J := Real.log_pos (by exact_mod_cast hJ)
    have hsd : argument.getD configured / 100 * Real.log J ≠ 0 := mul_ne_zero (div_ne_zero hq (by norm_num)) hl.ne'
    unfold Spec.gaussianNll
    rw [div_eq_zero_iff, or_iff_left (by norm_num), Finset.sum_eq_zero_iff_of_nonneg fun k _ => sq_nonneg _]
    simp only [Finset.mem_univ, true_implies]
    constructor
    · intro h
      funext k
      have h1 := h k
      rw [sq_eq_zero_iff, div_eq_zero_iff, or_iff_left hsd, sub_eq_zero] at h1
      exact (Real.log_injOn_pos (ho k) (hp k) h1).symm
    · rintro rfl k
      simp

/-- **C182 (scale).**  Halving the noise quadruples the loss. -/
theorem C182_scale (J : ℕ) (hJ : 2 ≤ J) (q : ℝ) (hq : q ≠ 0) (pred obs : ι → ℝ) (l : ℝ) (h : attractionNll J q none pred obs = some l) :
    attractionNll J (q / 2) none pred obs = some (4 * l) := by
  rw [C182_likelihood J hJ q none pred obs hq] at h
  rw [C182_likelihood J hJ (q / 2) none pred obs (by simpa using hq)]
  cases h
  simp only [Option.getD_none]
  rw [gaussian_eq, gaussian_eq]
  have hl : 0 < Real.log J := Real.log_pos (by exact_mod_cast hJ)
  congr 1
  have hl' := hl.ne'
  field_simp
  ring

/-- With a single destination, or with no noise, there is no finite likelihood. -/
theorem C182_degenerate (J : ℕ) (configured : ℝ) (pred obs : ι → ℝ) (h : J = 1 ∨ configured = 0) (argument : Option ℝ) :
    attractionNll J configured none pred obs = none ∧ attractionNllAndGrad J configured argument pred obs = none := by
  have hz : noiseVarOf J configured = 0 := by
    unfold noiseVarOf
    rcases h with rfl | rfl <;> simp
  constructor
  · simp [attractionNll, invOpt, hz]
  · simp [attractionNllAndGrad, invOpt, hz]

example : attractionNll 5 3 none (fun _ : Fin 5 => (1 : ℝ)) (fun _ => 1) = some 0 := by
  rw [C182_likelihood 5 (by norm_num) 3 none _ _ (by norm_num)]
  simp [Spec.gaussianNll]

end GeNSIT
