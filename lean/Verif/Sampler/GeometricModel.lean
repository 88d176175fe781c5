import Verif.Sampler.Geometric
import Verif.Sampler.Normaliser

/-!
# C196 for the Harris-Wilson potential with its exact normalising constant

The log posterior of the parameters is bounded on the square, so the parameters forget their start at a geometric rate.  The
potential is `sde_pot` of `gensit/intensity_models/TotallyConstrained/__init__.py:32-56`.
-/

set_option linter.unusedSectionVars false
set_option linter.unusedVariables false

open MeasureTheory Set
open scoped ENNReal

namespace GeNSIT

/-- The summed utilities. -/
noncomputable def utilitySum (alpha beta : ℝ) (I J : ℕ) (cost : ℕ → ℕ → ℝ) (x : Fin J → ℝ) : ℝ :=
  ∑ i : Fin I, ∑ j : Fin J, Real.exp (alpha * x j - beta * cost i j)

theorem utilitySum_pos (alpha beta : ℝ) {I J : ℕ} (hI : 0 < I) (hJ : 0 < J) (cost : ℕ → ℕ → ℝ) (x : Fin J → ℝ) :
    0 < utilitySum alpha beta I J cost x :=
  Finset.sum_pos (fun i _ => Finset.sum_pos (fun j _ => Real.exp_pos _) ⟨⟨0, hJ⟩, Finset.mem_univ _⟩) ⟨⟨0, hI⟩, Finset.mem_univ _⟩

theorem utility_upper {alpha : ℝ} (ha : 0 ≤ alpha) (beta : ℝ) {I J : ℕ} (hI : 0 < I) (hJ : 0 < J) (cost : ℕ → ℕ → ℝ)
    (x y : Fin J → ℝ) {t : ℝ} (ht0 : 0 ≤ t) (ht : ∀ j, y j - x j ≤ t) :
    1 / alpha * Real.log (utilitySum alpha beta I J cost y) - 1 / alpha * Real.log (utilitySum alpha beta I J cost x) ≤ t := by
  rcases ha.eq_or_lt with rfl | ha
  · simpa using ht0
  · have hx := utilitySum_pos alpha beta hI hJ cost x
    have hy := utilitySum_pos alpha beta hI hJ cost y
    have h1 : utilitySum alpha beta I J cost y ≤ Real.exp (alpha * t) * utilitySum alpha beta I J cost x := by
      unfold utilitySum
      rw [Finset.mul_sum]
      refine Finset.sum_le_sum fun i _ => ?_
      rw [Finset.mul_sum]
      refine Finset.sum_le_sum fun j _ => ?_
      rw [← Real.exp_add]
      refine Real.exp_le_exp.2 ?_
      have := mul_le_mul_of_nonneg_left (ht j) ha.le
      linarith
    have h2 := Real.log_le_log hy h1
    rw [Real.log_mul (Real.exp_pos _).ne' hx.ne', Real.log_exp] at h2
    rw [← mul_sub]
    have h3 : 1 / alpha * (Real.log (utilitySum alpha beta I J cost y) - Real.log (utilitySum alpha beta I J cost x)) ≤
        1 / alpha * (alpha * t) := mul_le_mul_of_nonneg_left (by linarith) (by positivity)
    have h4 : 1 / alpha * (alpha * t) = t := by field_simp
    linarith

/-- The same potential at other parameters. -/
def PotParams.at (p : PotParams) (th : Fin 2 → ℝ) : PotParams := { p with alpha := th 0, beta := th 1 }

theorem potential_diff (p : PotParams) (th : Fin 2 → ℝ) (I J : ℕ) (cost : ℕ → ℕ → ℝ) (x y : Fin J → ℝ) :
    codeTarget (p.at th) I J cost x - codeTarget (p.at th) I J cost y =
      2 * p.epsilon / p.sigma ^ 2 *
        ((1 / th 0 * Real.log (utilitySum (th 0) (th 1) I J cost y) - 1 / th 0 * Real.log (utilitySum (th 0) (th 1) I J cost x)) +
          p.kappa * ((∑ j, Real.exp (x j)) - ∑ j, Real.exp (y j)) + p.delta * ((∑ j, y j) - ∑ j, x j)) := by
  rw [codeTarget_eq, codeTarget_eq]
  simp only [PotParams.at, utilitySum]
  ring

/-- From above, uniformly in the parameters. -/
theorem potential_above (p : PotParams) (hk : 0 < p.kappa) (he : 0 < p.epsilon) (hs : 0 < p.sigma) {I J : ℕ} (hI : 0 < I)
    (hJ : 0 < J) (cost : ℕ → ℕ → ℝ) (x : Fin J → ℝ) : ∃ C : ℝ, ∀ th : Fin 2 → ℝ, 0 ≤ th 0 → ∀ y : Fin J → ℝ,
      codeTarget (p.at th) I J cost x - codeTarget (p.at th) I J cost y ≤
        -Spec.gammaPot (2 * p.epsilon / p.sigma ^ 2 * p.delta) (2 * p.epsilon / p.sigma ^ 2 * (p.kappa / 2)) y + C := by
  set g : ℝ := 2 * p.epsilon / p.sigma ^ 2 with hg
  have hgpos : 0 < g := by positivity
  obtain ⟨C0, hC0⟩ := linear_le_exp 1 (p.kappa / 2) zero_le_one (by positivity)
  refine ⟨g * ((∑ j : Fin J, (|C0| + |x j|)) + p.kappa * (∑ j, Real.exp (x j)) - p.delta * ∑ j, x j), fun th hth y => ?_⟩
  rw [potential_diff, ← hg]
  have hone : ∀ j : Fin J, max (y j - x j) 0 ≤ p.kappa / 2 * Real.exp (y j) + (|C0| + |x j|) := by
    intro j
    have h1 := hC0 (y j)
    have h2 := le_abs_self C0
    have h3 := neg_abs_le (x j)
    have h4 : 0 ≤ p.kappa / 2 * Real.exp (y j) := by have := Real.exp_pos (y j); positivity
    have h5 := abs_nonneg C0
    have h6 := abs_nonneg (x j)
    refine max_le ?_ (by linarith)
    linarith
  have h1 := utility_upper hth (th 1) hI hJ cost x y (t := ∑ j, max (y j - x j) 0) (Finset.sum_nonneg fun j _ => le_max_right _ _)
    (fun j => (le_max_left _ _).trans (Finset.single_le_sum (f := fun j => max (y j - x j) 0) (fun j _ => le_max_right _ _) (Finset.mem_univ j)))
  have h2 : ∑ j, max (y j - x j) 0 ≤ ∑ j : Fin J, (p.kappa / 2 * Real.exp (y j) + (|C0| + |x j|)) := Finset.sum_le_sum fun j _ => hone j
  rw [Finset.sum_add_distrib, ← Finset.mul_sum] at h2
  unfold Spec.gammaPot
  have h3 := mul_le_mul_of_nonneg_left (h1.trans h2) hgpos.le
  nlinarith

/-- From below on the unit cube above `x`, uniformly in the parameters. -/
theorem potential_below (p : PotParams) (hd : 0 ≤ p.delta) (hk : 0 < p.kappa) (he : 0 < p.epsilon) (hs : 0 < p.sigma) {I J : ℕ} (hI : 0 < I)
    (hJ : 0 < J) (cost : ℕ → ℕ → ℝ) (x : Fin J → ℝ) : ∃ c : ℝ, ∀ th : Fin 2 → ℝ, 0 ≤ th 0 → ∀ y ∈ Set.pi univ fun j => Icc (x j) (x j + 1),
      c ≤ codeTarget (p.at th) I J cost x - codeTarget (p.at th) I J cost y := by
  set g : ℝ := 2 * p.epsilon / p.sigma ^ 2 with hg
  have hgpos : 0 < g := by positivity
  refine ⟨g * (p.kappa * ((∑ j, Real.exp (x j)) - ∑ j, Real.exp (x j + 1))), fun th hth y hy => ?_⟩
  rw [potential_diff, ← hg]
  have hy' : ∀ j, x j ≤ y j ∧ y j ≤ x j + 1 := fun j => hy j (mem_univ j)
  have h1 := utility_upper hth (th 1) hI hJ cost y x (t := 0) le_rfl (fun j => by have := (hy' j).1; linarith)
  have h2 : ∑ j, Real.exp (y j) ≤ ∑ j, Real.exp (x j + 1) := Finset.sum_le_sum fun j _ => Real.exp_le_exp.2 (hy' j).2
  have h3 : ∑ j, x j ≤ ∑ j, y j := Finset.sum_le_sum fun j _ => (hy' j).1
  refine mul_le_mul_of_nonneg_left ?_ hgpos.le
  have h4 : 0 ≤ p.delta * ((∑ j, y j) - ∑ j, x j) := mul_nonneg hd (by linarith)
  have h5 := mul_le_mul_of_nonneg_left h2 hk.le
  nlinarith

/-- The logarithm of one over the exact normalising constant of `exp(-V)`. -/
noncomputable def Spec.exactLogZInverse {J : ℕ} (V : (Fin J → ℝ) → ℝ) : ℝ :=
  -Real.log (∫⁻ y, ENNReal.ofReal (Real.exp (-V y))).toReal

/-- The log posterior is bounded, uniformly over non-negative `alpha` and all `beta`. -/
theorem exact_bounded (p : PotParams) (hd : 0 < p.delta) (hk : 0 < p.kappa) (he : 0 < p.epsilon) (hs : 0 < p.sigma) {I J : ℕ} (hI : 0 < I)
    (hJ : 0 < J) (cost : ℕ → ℕ → ℝ) (x : Fin J → ℝ) : ∃ B : ℝ, ∀ th : Fin 2 → ℝ, 0 ≤ th 0 →
      |Spec.exactLogZInverse (codeTarget (p.at th) I J cost) - codeTarget (p.at th) I J cost x| ≤ B := by
  obtain ⟨C, hC⟩ := potential_above p hk he hs hI hJ cost x
  obtain ⟨c, hc⟩ := potential_below p hd.le hk he hs hI hJ cost x
  set g : ℝ := 2 * p.epsilon / p.sigma ^ 2 with hg
  have hgpos : 0 < g := by positivity
  set G : ℝ≥0∞ := ∫⁻ y : Fin J → ℝ, ENNReal.ofReal (Real.exp (-Spec.gammaPot (g * p.delta) (g * (p.kappa / 2)) y)) with hG
  have hGt : G ≠ ⊤ := by
    have := normaliser_gammaPot (ι := Fin J) (g * p.delta) (g * (p.kappa / 2)) (by positivity) (by positivity)
    unfold Spec.normaliser at this
    rw [hG, this]
    exact ENNReal.ofReal_ne_top
  have hG0 : G ≠ 0 := normaliser_ne_zero _ (measurable_gammaPot _ _)
  set U : ℝ := Real.exp C * G.toReal with hU
  have hUpos : 0 < U := mul_pos (Real.exp_pos _) (ENNReal.toReal_pos hG0 hGt)
  refine ⟨max |Real.log U| |c|, fun th hth => ?_⟩
  set V := codeTarget (p.at th) I J cost with hV
  have hVm : Measurable V := measurable_codeTarget (p.at th) I J cost
  set Z : ℝ≥0∞ := ∫⁻ y, ENNReal.ofReal (Real.exp (-V y)) with hZ
  -- above
  have hup : Z ≤ ENNReal.ofReal (Real.exp (-V x)) * (ENNReal.ofReal (Real.exp C) * G) := by
    have hm := measurable_gammaPot (ι := Fin J) (g * p.delta) (g * (p.kappa / 2))
    rw [hG, ← mul_assoc, ← ENNReal.ofReal_mul (Real.exp_nonneg _), ← Real.exp_add, ← lintegral_const_mul _ (by fun_prop), hZ]
    refine lintegral_mono fun y => ?_
    rw [← ENNReal.ofReal_mul (Real.exp_nonneg _), ← Real.exp_add]
    refine ENNReal.ofReal_le_ofReal (Real.exp_le_exp.2 ?_)
    have := hC th hth y
    rw [← hV] at this
    linarith
  have hZt : Z ≠ ⊤ := ne_top_of_le_ne_top (ENNReal.mul_ne_top ENNReal.ofReal_ne_top (ENNReal.mul_ne_top ENNReal.ofReal_ne_top hGt)) hup
  have hlow : ENNReal.ofReal (Real.exp (-V x + c)) ≤ Z := by
    have hvol : (volume : Measure (Fin J → ℝ)) (Set.pi univ fun j => Icc (x j) (x j + 1)) = 1 := by
      rw [volume_pi_pi]; simp
    calc ENNReal.ofReal (Real.exp (-V x + c)) = ∫⁻ _ in Set.pi univ fun j => Icc (x j) (x j + 1), ENNReal.ofReal (Real.exp (-V x + c)) := by
          rw [setLIntegral_const, hvol, mul_one]
      _ ≤ ∫⁻ y in Set.pi univ fun j => Icc (x j) (x j + 1), ENNReal.ofReal (Real.exp (-V y)) := by
          refine setLIntegral_mono (by fun_prop) fun y hy => ENNReal.ofReal_le_ofReal (Real.exp_le_exp.2 ?_)
          have := hc th hth y hy
          rw [← hV] at this
          linarith
      _ ≤ Z := setLIntegral_le_lintegral _ _
  have hZR1 : Z.toReal ≤ Real.exp (-V x) * U := by
    have := ENNReal.toReal_mono (ENNReal.mul_ne_top ENNReal.ofReal_ne_top (ENNReal.mul_ne_top ENNReal.ofReal_ne_top hGt)) hup
    rwa [ENNReal.toReal_mul, ENNReal.toReal_mul, ENNReal.toReal_ofReal (Real.exp_nonneg _), ENNReal.toReal_ofReal (Real.exp_nonneg _)] at this
  have hZR2 : Real.exp (-V x + c) ≤ Z.toReal := by
    have := ENNReal.toReal_mono hZt hlow
    rwa [ENNReal.toReal_ofReal (Real.exp_nonneg _)] at this
  have hZpos : 0 < Z.toReal := lt_of_lt_of_le (Real.exp_pos _) hZR2
  have l1 := Real.log_le_log hZpos hZR1
  rw [Real.log_mul (Real.exp_pos _).ne' hUpos.ne', Real.log_exp] at l1
  have l2 := Real.log_le_log (Real.exp_pos _) hZR2
  rw [Real.log_exp] at l2
  unfold Spec.exactLogZInverse
  rw [← hZ, abs_le]
  constructor
  · have := le_max_left |Real.log U| |c|
    have := le_abs_self (Real.log U)
    linarith
  · have := le_max_right |Real.log U| |c|
    have := neg_abs_le c
    linarith

theorem measurable_codeTarget_at (p : PotParams) (I J : ℕ) (cost : ℕ → ℕ → ℝ) (b : ℝ) :
    Measurable fun q : (ℝ × ℝ) × (Fin J → ℝ) => codeTarget (p.at ![q.1.1, q.1.2 * b]) I J cost q.2 := by
  simp only [codeTarget_eq, PotParams.at, Matrix.cons_val_zero, Matrix.cons_val_one]
  fun_prop

theorem measurable_codeTarget_theta (p : PotParams) (I J : ℕ) (cost : ℕ → ℕ → ℝ) (b : ℝ) (x : Fin J → ℝ) :
    Measurable fun a : ℝ × ℝ => codeTarget (p.at ![a.1, a.2 * b]) I J cost x := by
  simp only [codeTarget_eq, PotParams.at, Matrix.cons_val_zero, Matrix.cons_val_one]
  fun_prop

theorem measurable_exact (p : PotParams) (I J : ℕ) (cost : ℕ → ℕ → ℝ) (b : ℝ) :
    Measurable fun a : ℝ × ℝ => Spec.exactLogZInverse (codeTarget (p.at ![a.1, a.2 * b]) I J cost) := by
  have h := measurable_codeTarget_at p I J cost b
  have h2 : Measurable fun a : ℝ × ℝ => ∫⁻ y, ENNReal.ofReal (Real.exp (-codeTarget (p.at ![a.1, a.2 * b]) I J cost y)) :=
    Measurable.lintegral_prod_right (f := fun (a : ℝ × ℝ) (y : Fin J → ℝ) => ENNReal.ofReal (Real.exp (-codeTarget (p.at ![a.1, a.2 * b]) I J cost y)))
      (ENNReal.measurable_ofReal.comp (Real.measurable_exp.comp h.neg))
  unfold Spec.exactLogZInverse
  fun_prop

theorem exact_hypotheses {J : ℕ} {T : Type} (ph : Phys ℝ (Fin J) T) (z : (Fin 2 → ℝ) → ℝ × ℝ) (p : PotParams) (hd : 0 < p.delta) (hk : 0 < p.kappa)
    (he : 0 < p.epsilon) (hs : 0 < p.sigma) {I : ℕ} (hI : 0 < I) (hJ : 0 < J) (cost : ℕ → ℕ → ℝ) (x : Fin J → ℝ)
    (hpot : ∀ th y, ph.pot th y = codeTarget (p.at th) I J cost y) (hz : ∀ th, (z th).1 = Spec.exactLogZInverse (ph.pot th)) :
    Measurable (Spec.logPosterior ph z x) ∧ ∃ B : ℝ, ∀ a ∈ Spec.Square, |Spec.logPosterior ph z x a| ≤ B := by
  have hfun : ∀ th, ph.pot th = codeTarget (p.at th) I J cost := fun th => funext (hpot th)
  have hlp : Spec.logPosterior ph z x = fun a : ℝ × ℝ =>
      Spec.exactLogZInverse (codeTarget (p.at ![a.1, a.2 * ph.bmax]) I J cost) - codeTarget (p.at ![a.1, a.2 * ph.bmax]) I J cost x := by
    funext a
    unfold Spec.logPosterior
    rw [hz, hfun]
  refine ⟨?_, ?_⟩
  · rw [hlp]
    exact (measurable_exact p I J cost ph.bmax).sub (measurable_codeTarget_theta p I J cost ph.bmax x)
  · obtain ⟨B, hB⟩ := exact_bounded p hd hk he hs hI hJ cost x
    refine ⟨B, fun a ha => ?_⟩
    rw [hlp]
    exact hB ![a.1, a.2 * ph.bmax] (mem_Ico.1 ha.1).1

/-- **C196.** The totally constrained model with `delta > 0`, its exact normalising constant and the program's walk with a
diagonal `covariance`: there is a rate below 1 such that from any parameters in the square, after `n` updates the mean of any
`psi` between 0 and 1 is within its `n`-th power of the posterior mean, for all destination attractions, costs and numbers of
origins and destinations. -/
theorem C196_exact {J : ℕ} {T : Type} (ph : Phys ℝ (Fin J) T) (z : (Fin 2 → ℝ) → ℝ × ℝ) (p : PotParams) (hd : 0 < p.delta) (hk : 0 < p.kappa)
    (he : 0 < p.epsilon) (hs : 0 < p.sigma) {I : ℕ} (hI : 0 < I) (hJ : 0 < J) (cost : ℕ → ℕ → ℝ) (x : Fin J → ℝ)
    (hpot : ∀ th y, ph.pot th y = codeTarget (p.at th) I J cost y) (hz : ∀ th, (z th).1 = Spec.exactLogZInverse (ph.pot th))
    {v v' : NNReal} (hv : v ≠ 0) (hv' : v' ≠ 0) : ∃ rho : ℝ, 0 ≤ rho ∧ rho < 1 ∧
      ∀ psi : (Fin 2 → ℝ) → ℝ≥0∞, (Measurable fun a : ℝ × ℝ => psi ![a.1, a.2]) → (∀ th, psi th ≤ 1) →
      ∀ (n : ℕ) (a : ℝ × ℝ), a ∈ Spec.Square → ∀ s, Spec.CarriedAt ph z x a s →
        |(Spec.meanAfter (thetaMove ph z x) (Spec.normalWalk v v') (fun s => psi s.1) n s).toReal -
          (Spec.meanUnder (Spec.logPosterior ph z x) fun a => psi ![a.1, a.2]).toReal| ≤ rho ^ n := by
  obtain ⟨hL, B, hB'⟩ := exact_hypotheses ph z p hd hk he hs hI hJ cost x hpot hz
  have hlow := normalLow_pos hv hv'
  refine ⟨1 - 4 * Spec.normalLow v v' * Real.exp (-(2 * B)), ?_, ?_, ?_⟩
  · exact normal_rate_nonneg hv hv' hL hB'
  · have := mul_pos (mul_pos (by norm_num : (0 : ℝ) < 4) hlow) (Real.exp_pos (-(2 * B)))
    linarith
  · intro psi hpsi hpsi1 n a ha s hs
    exact (C196_normal_walk ph z x hv hv' hpsi hpsi1 hL hB' n ha hs).1

/-- The hypotheses are met. -/
example : ∃ (ph : Phys ℝ (Fin 3) Unit) (z : (Fin 2 → ℝ) → ℝ × ℝ) (p : PotParams), 0 < p.delta ∧ 0 < p.kappa ∧ 0 < p.epsilon ∧
    0 < p.sigma ∧ (∀ th y, ph.pot th y = codeTarget (p.at th) 2 3 (fun i j => (i : ℝ) - j) y) ∧
      (∀ th, (z th).1 = Spec.exactLogZInverse (ph.pot th)) ∧ ∃ s, Spec.CarriedAt ph z 0 (1, 1 / 2) s := by
  let p : PotParams := ⟨1, 1, 1 / 10, 1, 1, 1⟩
  let ph : Phys ℝ (Fin 3) Unit := ⟨1, fun th y => codeTarget (p.at th) 2 3 (fun i j => (i : ℝ) - j) y, fun _ _ _ => 0, fun _ _ _ => 0,
    fun _ _ _ _ => 0, fun _ => 0, 1⟩
  let z : (Fin 2 → ℝ) → ℝ × ℝ := fun th => (Spec.exactLogZInverse (ph.pot th), 1)
  refine ⟨ph, z, p, by norm_num [p], by norm_num [p], by norm_num [p], by norm_num [p], fun _ _ => rfl, fun _ => rfl,
    (![1, 1 / 2], ⟨ph.pot ![1, 1 / 2 * ph.bmax] 0, fun _ => 0, (z ![1, 1 / 2 * ph.bmax]).1, 1⟩), rfl, rfl, rfl⟩

end GeNSIT
