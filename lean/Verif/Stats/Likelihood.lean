import Mathlib.Data.Nat.Choose.Multinomial
import Mathlib.Analysis.SpecialFunctions.Log.Basic
import Mathlib.Analysis.SpecialFunctions.Gamma.Basic
import Mathlib.Analysis.SpecialFunctions.Exponential
import Mathlib.Algebra.BigOperators.Field
import Mathlib.Analysis.Complex.ExponentialBounds

/-!
# C79–C81: table likelihoods

Tables are `I × J → ℕ`, log intensities `I × J → ℝ`.
-/

set_option linter.unusedSimpArgs false
set_option linter.unusedSectionVars false

namespace GeNSIT

open scoped Nat

/-! ## Specification -/

namespace Spec

/-- The weight every table distribution of the paper is proportional to: `∏ λ^T / T!`. -/
noncomputable def tableWeight {ι : Type} [Fintype ι] (T : ι → ℕ) (L : ι → ℝ) : ℝ :=
  ∏ c, Real.exp (L c) ^ T c / (T c)!

/-- The probability of `T` given that it belongs to the finite set `S` of tables. -/
noncomputable def condProb {ι : Type} [Fintype ι] (S : Finset (ι → ℕ)) (T : ι → ℕ) (L : ι → ℝ) : ℝ :=
  tableWeight T L / ∑ T' ∈ S, tableWeight T' L

end Spec

variable {I J : Type} [Fintype I] [Fintype J] [DecidableEq I] [DecidableEq J]

/-! ## Model -/

/-- `log_factorial_sum` (math_utils.py:17-18) of a table of counts: `lgamma(n+1) = log n!`. -/
noncomputable def tableLogFact (T : I × J → ℕ) : ℝ := ∑ c, Real.log (T c)!

/-- `log_poisson_pmf_unnormalised` (probability_utils.py:83-85). -/
noncomputable def logPoisson (T : I × J → ℕ) (L : I × J → ℝ) : ℝ :=
  -(∑ c, L c) + ∑ c, (T c : ℝ) * L c - tableLogFact T

/-- `log_multinomial_pmf_unnormalised` (probability_utils.py:104-108). -/
noncomputable def logMultinomial (T : I × J → ℕ) (L : I × J → ℝ) : ℝ :=
  ∑ c, (T c : ℝ) * (L c - Real.log (∑ d, Real.exp (L d))) - tableLogFact T

/-- `log_product_multinomial_pmf_unnormalised` (probability_utils.py:131-137): each row is normalised. -/
noncomputable def logProductMultinomial (T : I × J → ℕ) (L : I × J → ℝ) : ℝ :=
  ∑ c, (T c : ℝ) * (L c - Real.log (∑ j, Real.exp (L (c.1, j)))) - tableLogFact T

/-- `log_odds_ratio_wrt_intensity` (probability_utils.py:42-56).  The total is the log-sum-exp of the row
sums. -/
noncomputable def logOddsRatio (L : I × J → ℝ) (c : I × J) : ℝ :=
  L c + Real.log (∑ i, Real.exp (Real.log (∑ j, Real.exp (L (i, j)))))
    - Real.log (∑ j, Real.exp (L (c.1, j))) - Real.log (∑ i, Real.exp (L (i, c.2)))

/-- `log_fishers_hypergeometric_pmf_unnormalised` (probability_utils.py:165-171). -/
noncomputable def logFisher (T : I × J → ℕ) (L : I × J → ℝ) : ℝ :=
  ∑ c, (T c : ℝ) * (logOddsRatio L c - Real.log (∑ d, Real.exp (logOddsRatio L d))) - tableLogFact T

/-- `log_odds_cross_ratio` (probability_utils.py:77-79). -/
def logCrossRatio (L : I × J → ℝ) (c d : I × J) : ℝ :=
  L c + L d - L (c.1, d.2) - L (d.1, c.2)

/-- `log_poisson_loss` (probability_utils.py:87-93). -/
noncomputable def lossPoisson (T : I × J → ℕ) (L : I × J → ℝ) : ℝ :=
  ∑ c, L c + -(∑ c, (T c : ℝ) * L c) + tableLogFact T

/-- `log_multinomial_loss` (probability_utils.py:110-119). -/
noncomputable def lossMultinomial (T : I × J → ℕ) (L : I × J → ℝ) : ℝ :=
  -(∑ c, (T c : ℝ) * (L c - Real.log (∑ d, Real.exp (L d)))) + tableLogFact T

/-- `log_product_multinomial_loss` (probability_utils.py:139-149): the reduced dimension is `origin`, so each
*column* is normalised. -/
noncomputable def lossProductMultinomial (T : I × J → ℕ) (L : I × J → ℝ) : ℝ :=
  -(∑ c, (T c : ℝ) * (L c - Real.log (∑ i, Real.exp (L (i, c.2))))) + tableLogFact T

/-- `log_odds_ratio_wrt_intensity_xarray` (probability_utils.py:58-75): the total is the log-sum-exp of all
cells. -/
noncomputable def logOddsRatioX (L : I × J → ℝ) (c : I × J) : ℝ :=
  L c + Real.log (∑ d, Real.exp (L d))
    - Real.log (∑ j, Real.exp (L (c.1, j))) - Real.log (∑ i, Real.exp (L (i, c.2)))

/-- `log_fishers_hypergeometric_loss` (probability_utils.py:173-187). -/
noncomputable def lossFisher (T : I × J → ℕ) (L : I × J → ℝ) : ℝ :=
  -(∑ c, (T c : ℝ) * (logOddsRatioX L c - Real.log (∑ d, Real.exp (logOddsRatioX L d)))) + tableLogFact T

/-- `log_multinomial_pmf_unnormalised` (probability_utils.py:104-108) for a real-valued first argument, with
`lgamma x = log Γ(x)`. -/
noncomputable def logMultinomialR (T L : I × J → ℝ) : ℝ :=
  ∑ c, T c * (L c - Real.log (∑ d, Real.exp (L d))) - ∑ c, Real.log (Real.Gamma (T c + 1))

/-- `log_multinomial_pmf_normalised` (probability_utils.py:122-124): the arguments are passed in the wrong
order. -/
noncomputable def logMultinomialNorm (T L : I × J → ℝ) : ℝ :=
  logMultinomialR L T + Real.log (Real.Gamma (∑ c, T c + 1))

/-! ## Lemmas -/

theorem exp_tableLogFact (T : I × J → ℕ) : Real.exp (tableLogFact T) = ∏ c, ((T c)! : ℝ) := by
  unfold tableLogFact
  rw [Real.exp_sum]
  refine Finset.prod_congr rfl fun c _ => ?_
  rw [Real.exp_log (by exact_mod_cast Nat.factorial_pos _)]

theorem exp_sum_sub (T : I × J → ℕ) (A : I × J → ℝ) :
    Real.exp (∑ c, (T c : ℝ) * A c - tableLogFact T) = Spec.tableWeight T A := by
  unfold Spec.tableWeight
  rw [Real.exp_sub, exp_tableLogFact, Real.exp_sum, Finset.prod_div_distrib]
  congr 1
  refine Finset.prod_congr rfl fun c _ => ?_
  rw [mul_comm, Real.exp_mul, Real.rpow_natCast]

theorem weight_pos {ι : Type} [Fintype ι] (T : ι → ℕ) (L : ι → ℝ) : 0 < Spec.tableWeight T L := by
  unfold Spec.tableWeight
  exact Finset.prod_pos fun c _ => div_pos (pow_pos (Real.exp_pos _) _)
    (by exact_mod_cast Nat.factorial_pos _)

theorem weight_sub {ι : Type} [Fintype ι] (T : ι → ℕ) (L B : ι → ℝ) :
    Spec.tableWeight T (fun c => L c - B c) = Spec.tableWeight T L / ∏ c, Real.exp (B c) ^ T c := by
  unfold Spec.tableWeight
  rw [← Finset.prod_div_distrib]
  refine Finset.prod_congr rfl fun c _ => ?_
  rw [Real.exp_sub, div_pow]
  ring

/-- Sum of the weights of all tables with a given total. -/
theorem sum_weight_total {ι : Type} [Fintype ι] [DecidableEq ι] (L : ι → ℝ) (N : ℕ) (S : Finset (ι → ℕ))
    (hS : ∀ T', T' ∈ S ↔ ∑ c, T' c = N) :
    ∑ T' ∈ S, Spec.tableWeight T' L = (∑ c, Real.exp (L c)) ^ N / N ! := by
  have hSe : S = Finset.piAntidiag Finset.univ N := by
    ext T'
    rw [hS, Finset.mem_piAntidiag]
    simp
  rw [hSe, Finset.sum_pow_eq_sum_piAntidiag, Finset.sum_div]
  refine Finset.sum_congr rfl fun T' hT' => ?_
  rw [Finset.mem_piAntidiag] at hT'
  have hspec := Nat.multinomial_spec Finset.univ T'
  rw [hT'.1] at hspec
  have hspec' : (∏ c, ((T' c)! : ℝ)) * (Nat.multinomial Finset.univ T' : ℝ) = (N ! : ℝ) := by
    exact_mod_cast hspec
  unfold Spec.tableWeight
  rw [Finset.prod_div_distrib]
  have hp : (∏ c, ((T' c)! : ℝ)) ≠ 0 :=
    Finset.prod_ne_zero_iff.2 fun c _ => by exact_mod_cast Nat.factorial_ne_zero _
  have hN : (N ! : ℝ) ≠ 0 := by exact_mod_cast Nat.factorial_ne_zero _
  rw [div_eq_div_iff hp hN, ← hspec']
  ring

theorem weight_rows (T : I × J → ℕ) (L : I × J → ℝ) :
    Spec.tableWeight T L = ∏ i, Spec.tableWeight (fun j => T (i, j)) (fun j => L (i, j)) := by
  unfold Spec.tableWeight
  rw [Fintype.prod_prod_type]

theorem sum_weight_rows (L : I × J → ℝ) (r : I → ℕ) (S : Finset (I × J → ℕ))
    (hS : ∀ T', T' ∈ S ↔ ∀ i, ∑ j, T' (i, j) = r i) :
    ∑ T' ∈ S, Spec.tableWeight T' L = ∏ i, (∑ j, Real.exp (L (i, j))) ^ r i / (r i)! := by
  have h1 : ∀ i, (∑ j, Real.exp (L (i, j))) ^ r i / ((r i)! : ℝ) =
      ∑ t ∈ Finset.piAntidiag (Finset.univ : Finset J) (r i), Spec.tableWeight t fun j => L (i, j) := by
    intro i
    rw [sum_weight_total (fun j => L (i, j)) (r i)]
    intro T'
    rw [Finset.mem_piAntidiag]; simp
  rw [Finset.prod_congr rfl fun i _ => h1 i, Finset.prod_univ_sum]
  refine Finset.sum_equiv (Equiv.curry I J ℕ) ?_ ?_
  · intro T'
    rw [hS, Fintype.mem_piFinset]
    simp only [Finset.mem_piAntidiag, Equiv.curry, Equiv.coe_fn_mk, Finset.mem_univ, implies_true,
      and_true]
    rfl
  · intro T' _
    rw [weight_rows]
    rfl

theorem prod_exp_rows (T : I × J → ℕ) (z : I → ℝ) :
    ∏ c : I × J, z c.1 ^ T c = ∏ i, z i ^ ∑ j, T (i, j) := by
  rw [Fintype.prod_prod_type]
  refine Finset.prod_congr rfl fun i _ => ?_
  rw [← Finset.prod_pow_eq_pow_sum]

theorem prod_exp_cols (T : I × J → ℕ) (z : J → ℝ) :
    ∏ c : I × J, z c.2 ^ T c = ∏ j, z j ^ ∑ i, T (i, j) := by
  rw [Fintype.prod_prod_type_right]
  refine Finset.prod_congr rfl fun i _ => ?_
  rw [← Finset.prod_pow_eq_pow_sum]

theorem exp_logPoisson (T : I × J → ℕ) (L : I × J → ℝ) :
    Real.exp (logPoisson T L) = Real.exp (-∑ c, L c) * Spec.tableWeight T L := by
  rw [← exp_sum_sub, ← Real.exp_add]
  congr 1
  unfold logPoisson
  ring

theorem exp_logMultinomial (T : I × J → ℕ) (L : I × J → ℝ) :
    Real.exp (logMultinomial T L) =
      Spec.tableWeight T L / Real.exp (Real.log (∑ d, Real.exp (L d))) ^ ∑ c, T c := by
  unfold logMultinomial
  rw [exp_sum_sub, weight_sub, Finset.prod_pow_eq_pow_sum]

theorem exp_logProductMultinomial (T : I × J → ℕ) (L : I × J → ℝ) :
    Real.exp (logProductMultinomial T L) =
      Spec.tableWeight T L / ∏ i, Real.exp (Real.log (∑ j, Real.exp (L (i, j)))) ^ ∑ j, T (i, j) := by
  unfold logProductMultinomial
  rw [exp_sum_sub, weight_sub,
    prod_exp_rows T fun i => Real.exp (Real.log (∑ j, Real.exp (L (i, j))))]

theorem exp_logFisher (T : I × J → ℕ) (L : I × J → ℝ) :
    Real.exp (logFisher T L) = Spec.tableWeight T L /
      ((∏ i, Real.exp (Real.log (∑ j, Real.exp (L (i, j)))) ^ ∑ j, T (i, j)) *
        (∏ j, Real.exp (Real.log (∑ i, Real.exp (L (i, j)))) ^ ∑ i, T (i, j)) *
        Real.exp (Real.log (∑ d, Real.exp (logOddsRatio L d)) -
          Real.log (∑ i, Real.exp (Real.log (∑ j, Real.exp (L (i, j)))))) ^ ∑ c, T c) := by
  unfold logFisher
  rw [exp_sum_sub]
  have h : (fun c => logOddsRatio L c - Real.log (∑ d, Real.exp (logOddsRatio L d))) =
      fun c : I × J => L c - (Real.log (∑ j, Real.exp (L (c.1, j))) +
        Real.log (∑ i, Real.exp (L (i, c.2))) +
        (Real.log (∑ d, Real.exp (logOddsRatio L d)) -
          Real.log (∑ i, Real.exp (Real.log (∑ j, Real.exp (L (i, j))))))) := by
    funext c
    conv_lhs => lhs; unfold logOddsRatio
    ring
  rw [h, weight_sub]
  congr 1
  rw [← prod_exp_rows T fun i => Real.exp (Real.log (∑ j, Real.exp (L (i, j)))),
    ← prod_exp_cols T fun j => Real.exp (Real.log (∑ i, Real.exp (L (i, j)))),
    ← Finset.prod_pow_eq_pow_sum, ← Finset.prod_mul_distrib, ← Finset.prod_mul_distrib]
  refine Finset.prod_congr rfl fun c _ => ?_
  rw [Real.exp_add, Real.exp_add, mul_pow, mul_pow]

theorem flat_total_of_rows {T T' : I × J → ℕ} (h : ∀ i, ∑ j, T (i, j) = ∑ j, T' (i, j)) :
    ∑ c, T c = ∑ c, T' c := by
  rw [Fintype.sum_prod_type, Fintype.sum_prod_type]
  exact Finset.sum_congr rfl fun i _ => h i

/-! ## C79: the likelihoods compare tables correctly -/

/-- **C79.**  Poisson: for every pair of tables the likelihood ratio is the ratio of the weights. -/
theorem C79_poisson (T T' : I × J → ℕ) (L : I × J → ℝ) :
    Real.exp (logPoisson T L - logPoisson T' L) = Spec.tableWeight T L / Spec.tableWeight T' L := by
  rw [Real.exp_sub, exp_logPoisson, exp_logPoisson, mul_div_mul_left _ _ (Real.exp_ne_zero _)]

/-- **C79.**  Multinomial: for every pair of tables with the same total. -/
theorem C79_multinomial (T T' : I × J → ℕ) (L : I × J → ℝ) (h : ∑ c, T c = ∑ c, T' c) :
    Real.exp (logMultinomial T L - logMultinomial T' L) = Spec.tableWeight T L / Spec.tableWeight T' L := by
  rw [Real.exp_sub, exp_logMultinomial, exp_logMultinomial, h,
    div_div_div_cancel_right₀ (pow_ne_zero _ (Real.exp_ne_zero _))]

/-- **C79.**  Product multinomial: for every pair of tables with the same row sums. -/
theorem C79_product_multinomial (T T' : I × J → ℕ) (L : I × J → ℝ)
    (h : ∀ i, ∑ j, T (i, j) = ∑ j, T' (i, j)) :
    Real.exp (logProductMultinomial T L - logProductMultinomial T' L) =
      Spec.tableWeight T L / Spec.tableWeight T' L := by
  rw [Real.exp_sub, exp_logProductMultinomial, exp_logProductMultinomial]
  simp only [h]
  exact div_div_div_cancel_right₀
    (Finset.prod_ne_zero_iff.2 fun i _ => pow_ne_zero _ (Real.exp_ne_zero _)) _ _

/-- **C79.**  Fisher's hypergeometric: for every pair of tables with the same row and column sums. -/
theorem C79_fisher (T T' : I × J → ℕ) (L : I × J → ℝ)
    (hr : ∀ i, ∑ j, T (i, j) = ∑ j, T' (i, j)) (hc : ∀ j, ∑ i, T (i, j) = ∑ i, T' (i, j)) :
    Real.exp (logFisher T L - logFisher T' L) = Spec.tableWeight T L / Spec.tableWeight T' L := by
  rw [Real.exp_sub, exp_logFisher, exp_logFisher]
  simp only [hr, hc, flat_total_of_rows hr]
  refine div_div_div_cancel_right₀ (mul_ne_zero (mul_ne_zero ?_ ?_) ?_) _ _
  · exact Finset.prod_ne_zero_iff.2 fun i _ => pow_ne_zero _ (Real.exp_ne_zero _)
  · exact Finset.prod_ne_zero_iff.2 fun i _ => pow_ne_zero _ (Real.exp_ne_zero _)
  · exact pow_ne_zero _ (Real.exp_ne_zero _)

/-- **C79.**  With fixed margins, only the cross ratios of the intensities matter: rescaling rows and columns
changes no likelihood ratio. -/
theorem C79_fisher_scaling (T T' : I × J → ℕ) (L : I × J → ℝ) (a : I → ℝ) (b : J → ℝ)
    (hr : ∀ i, ∑ j, T (i, j) = ∑ j, T' (i, j)) (hc : ∀ j, ∑ i, T (i, j) = ∑ i, T' (i, j)) :
    logFisher T (fun c => L c - (a c.1 + b c.2)) - logFisher T' (fun c => L c - (a c.1 + b c.2)) =
      logFisher T L - logFisher T' L := by
  apply Real.exp_injective
  rw [C79_fisher T T' _ hr hc, C79_fisher T T' _ hr hc, weight_sub, weight_sub]
  have h : ∀ U : I × J → ℕ, ∏ c : I × J, Real.exp (a c.1 + b c.2) ^ U c =
      (∏ i, Real.exp (a i) ^ ∑ j, U (i, j)) * ∏ j, Real.exp (b j) ^ ∑ i, U (i, j) := by
    intro U
    rw [← prod_exp_rows U fun i => Real.exp (a i), ← prod_exp_cols U fun j => Real.exp (b j),
      ← Finset.prod_mul_distrib]
    refine Finset.prod_congr rfl fun c _ => ?_
    rw [Real.exp_add, mul_pow]
  rw [h, h]
  simp only [hr, hc]
  refine div_div_div_cancel_right₀ (mul_ne_zero ?_ ?_) _ _
  · exact Finset.prod_ne_zero_iff.2 fun i _ => pow_ne_zero _ (Real.exp_ne_zero _)
  · exact Finset.prod_ne_zero_iff.2 fun i _ => pow_ne_zero _ (Real.exp_ne_zero _)

/-- **C79.**  The log odds cross ratio used by the degree-higher proposal is the same for the intensities and
for their odds ratios, and is unchanged by rescaling rows and columns. -/
theorem C79_cross_ratio (L : I × J → ℝ) (a : I → ℝ) (b : J → ℝ) (c d : I × J) :
    logCrossRatio (logOddsRatio L) c d = logCrossRatio L c d ∧
      logCrossRatio (fun e => L e + a e.1 + b e.2) c d = logCrossRatio L c d := by
  constructor
  · simp only [logCrossRatio, logOddsRatio]
    ring
  · simp only [logCrossRatio]
    ring

example : (∀ i : Fin 2, ∑ j : Fin 2, (fun c : Fin 2 × Fin 2 => if c.1 = c.2 then 1 else 0) (i, j) =
      ∑ j : Fin 2, (fun c : Fin 2 × Fin 2 => if c.1 = c.2 then 0 else 1) (i, j)) ∧
    (∀ j : Fin 2, ∑ i : Fin 2, (fun c : Fin 2 × Fin 2 => if c.1 = c.2 then 1 else 0) (i, j) =
      ∑ i : Fin 2, (fun c : Fin 2 × Fin 2 => if c.1 = c.2 then 0 else 1) (i, j)) := by decide

/-! ## C80: the likelihoods compare parameters correctly -/

/-- **C80.**  Multinomial: up to the factor `N!`, which does not depend on the intensities, the exponential
of the returned value is the probability of the table among all tables with its total. -/
theorem C80_multinomial [Nonempty I] [Nonempty J] (T : I × J → ℕ) (L : I × J → ℝ) (S : Finset (I × J → ℕ))
    (hS : ∀ T', T' ∈ S ↔ ∑ c, T' c = ∑ c, T c) :
    Real.exp (logMultinomial T L) * (∑ c, T c)! = Spec.condProb S T L := by
  have hz : 0 < ∑ d, Real.exp (L d) := Finset.sum_pos (fun _ _ => Real.exp_pos _) Finset.univ_nonempty
  unfold Spec.condProb
  rw [exp_logMultinomial, sum_weight_total L _ S hS, Real.exp_log hz]
  have h1 : (∑ d, Real.exp (L d)) ^ ∑ c, T c ≠ 0 := pow_ne_zero _ hz.ne'
  have h2 : ((∑ c, T c)! : ℝ) ≠ 0 := by exact_mod_cast Nat.factorial_ne_zero _
  field_simp

/-- **C80.**  Product multinomial: up to the factor `∏ rᵢ!`, the probability of the table among all tables
with its row sums. -/
theorem C80_product_multinomial [Nonempty J] (T : I × J → ℕ) (L : I × J → ℝ) (S : Finset (I × J → ℕ))
    (hS : ∀ T', T' ∈ S ↔ ∀ i, ∑ j, T' (i, j) = ∑ j, T (i, j)) :
    Real.exp (logProductMultinomial T L) * ∏ i, ((∑ j, T (i, j))! : ℝ) = Spec.condProb S T L := by
  have hz : ∀ i, 0 < ∑ j, Real.exp (L (i, j)) := fun i =>
    Finset.sum_pos (fun _ _ => Real.exp_pos _) Finset.univ_nonempty
  unfold Spec.condProb
  rw [exp_logProductMultinomial, sum_weight_rows L _ S hS, Finset.prod_div_distrib]
  simp only [Real.exp_log (hz _)]
  have h1 : ∏ i, (∑ j, Real.exp (L (i, j))) ^ ∑ j, T (i, j) ≠ 0 :=
    Finset.prod_ne_zero_iff.2 fun i _ => pow_ne_zero _ (hz i).ne'
  have h2 : ∏ i, ((∑ j, T (i, j))! : ℝ) ≠ 0 :=
    Finset.prod_ne_zero_iff.2 fun i _ => by exact_mod_cast Nat.factorial_ne_zero _
  field_simp

example : ∀ T' : Fin 2 × Fin 2 → ℕ, T' ∈ Finset.piAntidiag Finset.univ 2 ↔
    ∑ c, T' c = ∑ c, (fun c : Fin 2 × Fin 2 => if c.1 = c.2 then 1 else 0) c := by
  intro T'
  rw [Finset.mem_piAntidiag]
  have : ∑ c : Fin 2 × Fin 2, (if c.1 = c.2 then 1 else 0) = 2 := by decide
  simp only [this, Finset.mem_univ, implies_true, and_true]

/-- **C80 is false for the Poisson likelihood**: its exponential is not the Poisson probability up to a
factor that does not depend on the intensities (it contains `-∑ log λ` where the probability has `-∑ λ`). -/
theorem C80_poisson_false :
    ¬ ∃ h : (Unit × Unit → ℕ) → ℝ, ∀ (T : Unit × Unit → ℕ) (L : Unit × Unit → ℝ),
      Real.exp (logPoisson T L) * h T = Real.exp (-∑ c, Real.exp (L c)) * Spec.tableWeight T L := by
  rintro ⟨h, hh⟩
  have h0 := hh (fun _ => 0) (fun _ => 0)
  have h1 := hh (fun _ => 0) (fun _ => 1)
  simp only [exp_logPoisson, Spec.tableWeight] at h0 h1
  simp at h0 h1
  rw [h0, ← Real.exp_add] at h1
  have := Real.exp_injective h1
  have h2 := Real.exp_one_gt_d9
  linarith

/-- The tables with the row and column sums of the identity: itself and its mirror image. -/
def demoSupport : Finset (Fin 2 × Fin 2 → ℕ) :=
  {fun c => if c.1 = c.2 then 1 else 0, fun c => if c.1 = c.2 then 0 else 1}

/-- **C80 is false for Fisher's likelihood**: its exponential is not the probability of the table among all
tables with its margins, up to a factor that does not depend on the intensities. -/
theorem C80_fisher_false :
    ¬ ∀ (T : Fin 2 × Fin 2 → ℕ) (S : Finset (Fin 2 × Fin 2 → ℕ)),
      (∀ T', T' ∈ S ↔ (∀ i, ∑ j, T' (i, j) = ∑ j, T (i, j)) ∧
        (∀ j, ∑ i, T' (i, j) = ∑ i, T (i, j))) →
      ∃ h : ℝ, ∀ L, Real.exp (logFisher T L) * h = Spec.condProb S T L := by
  intro hall
  obtain ⟨h, hh⟩ := hall (fun c => if c.1 = c.2 then 1 else 0) demoSupport (by
    intro T'
    simp only [demoSupport, Finset.mem_insert, Finset.mem_singleton, Fin.sum_univ_two,
      Fin.forall_fin_two, funext_iff, Prod.forall]
    norm_num
    omega)
  have hne : (fun c : Fin 2 × Fin 2 => if c.1 = c.2 then 1 else 0) ≠
      fun c : Fin 2 × Fin 2 => if c.1 = c.2 then (0 : ℕ) else 1 := by
    intro hc
    have := congrFun hc (0, 0)
    simp at this
  have h0 := hh fun _ => 0
  have h1 := hh fun c => if c.1 = c.2 then Real.log 3 else 0
  have e3 : Real.exp (Real.log 3) = 3 := Real.exp_log (by norm_num)
  simp only [exp_logFisher, Spec.condProb, demoSupport, Finset.sum_pair hne, Spec.tableWeight,
    Fintype.sum_prod_type, Fintype.prod_prod_type, Fin.sum_univ_two, Fin.prod_univ_two,
    logOddsRatio] at h0 h1
  norm_num [e3, Real.exp_log, Real.exp_sub, Real.exp_add] at h0 h1
  linarith

/-! ## C81: the loss functions -/

/-- **C81, partial.**  Poisson, multinomial and Fisher losses are the negated log likelihoods the samplers
use.  Missing: the product multinomial loss. -/
theorem C81_loss_partial (T : I × J → ℕ) (L : I × J → ℝ) [Nonempty J] :
    lossPoisson T L = -logPoisson T L ∧ lossMultinomial T L = -logMultinomial T L ∧
      lossFisher T L = -logFisher T L := by
  have hz : ∀ i, 0 < ∑ j, Real.exp (L (i, j)) := fun i =>
    Finset.sum_pos (fun _ _ => Real.exp_pos _) Finset.univ_nonempty
  have hor : logOddsRatioX L = logOddsRatio L := by
    funext c
    unfold logOddsRatioX logOddsRatio
    simp only [Real.exp_log (hz _), Fintype.sum_prod_type]
  refine ⟨?_, ?_, ?_⟩
  · unfold lossPoisson logPoisson; ring
  · unfold lossMultinomial logMultinomial; ring
  · unfold lossFisher logFisher; rw [hor]; ring

/-- **C81 (exact behaviour).**  The product multinomial loss is the negated log likelihood of the transposed
table under the transposed intensities: it conditions on column sums. -/
theorem C81_product_loss_transposed (T : I × J → ℕ) (L : I × J → ℝ) :
    lossProductMultinomial T L =
      -logProductMultinomial (fun c : J × I => T (c.2, c.1)) (fun c : J × I => L (c.2, c.1)) := by
  unfold lossProductMultinomial logProductMultinomial tableLogFact
  rw [← Equiv.sum_comp (Equiv.prodComm I J), ← Equiv.sum_comp (Equiv.prodComm I J)]
  simp only [Equiv.prodComm_apply, Prod.fst_swap, Prod.snd_swap]
  ring

/-- **C81 is false for the product multinomial loss.** -/
theorem C81_product_loss_false :
    ¬ ∀ (T : Unit × Fin 2 → ℕ) (L : Unit × Fin 2 → ℝ),
      lossProductMultinomial T L = -logProductMultinomial T L := by
  intro h
  have h1 := h (fun _ => 1) (fun _ => 0)
  simp [lossProductMultinomial, logProductMultinomial, tableLogFact] at h1
  norm_num at h1

/-- **C81 is false for the normalised multinomial probability**: the two arguments are swapped, so the result
is not the unnormalised log probability plus `log N!`. -/
theorem C81_normalised_false :
    ¬ ∀ (T : Unit × Fin 2 → ℕ) (L : Unit × Fin 2 → ℝ),
      logMultinomialNorm (fun c => (T c : ℝ)) L = logMultinomial T L + Real.log (∑ c, T c)! := by
  intro h
  have h1 := h (fun c => if c.2 = 0 then 1 else 0) (fun _ => 0)
  have e : (Finset.univ.filter fun x : Unit × Fin 2 => x.2 = 0).card = 1 := by decide
  simp [logMultinomialNorm, logMultinomialR, logMultinomial, tableLogFact, Fintype.sum_prod_type, e] at h1
  have g : Real.Gamma (1 + 1) = 1 := by
    rw [Real.Gamma_add_one one_ne_zero, Real.Gamma_one, mul_one]
  rw [g, Real.log_one] at h1
  have := Real.log_pos (show (1 : ℝ) < 2 by norm_num)
  linarith

end GeNSIT
