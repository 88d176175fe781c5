import Verif.Sampler.Annealing

/-!
# Property theorem C183 (the normalising constant exists)

The samplers of `/repo/gensit/learning_models/HarrisWilsonModel_MCMC.py` treat `exp(-sde_potential(x))` as an unnormalised density of the log destination attractions and estimate
(one over) its integral `z` (`biased_z_inverse`, `unbiased_z_inverse`, `annealed_importance_sampling_log_z`).  Here: when the integral is finite, for the potentials `sde_pot` of
`TotallyConstrained/__init__.py:32-56` and `ProductionConstrained/__init__.py:33-59` (models `sdePotT`, `sdePotP` in `Sim/Model.lean`).  The configuration schema admits every
`delta ≥ 0` and has 0 as the default (`cfg_schema.json:1370-1388`).
-/

namespace GeNSIT

open MeasureTheory ENNReal

/-! ### Specification -/

/-- What the configuration schema admits for the potential's parameters, and `alpha` inside the box of the samplers. -/
def Spec.Admitted (p : PotParams) : Prop := 0 < p.alpha ∧ 0 ≤ p.delta ∧ 0 < p.kappa ∧ 0 < p.epsilon ∧ 0 < p.sigma

/-- The integral of `exp(-V)` is a positive number, so `exp(-V)` is a density up to this number. -/
def Spec.Normalisable {J : ℕ} (V : (Fin J → ℝ) → ℝ) : Prop := ∃ z : ℝ, 0 < z ∧ ∫⁻ x, ENNReal.ofReal (Real.exp (-V x)) = ENNReal.ofReal z

/-! ### Lemmas -/

/-- A linear function is below a multiple of the exponential, up to a constant. -/
theorem linear_le_exp (c k : ℝ) (hc : 0 ≤ c) (hk : 0 < k) : ∃ C : ℝ, ∀ x : ℝ, c * x ≤ k * Real.exp x + C := by
  rcases hc.eq_or_lt with rfl | hc
  · exact ⟨0, fun x => by have := Real.exp_pos x; rw [zero_mul, add_zero]; positivity⟩
  · refine ⟨c * (-1 - Real.log (k / c)), fun x => ?_⟩
    have h := Real.log_le_sub_one_of_pos (x := k / c * Real.exp x) (by positivity)
    rw [Real.log_mul (by positivity) (Real.exp_pos x).ne', Real.log_exp] at h
    have h2 : c * (Real.log (k / c) + x) ≤ c * (k / c * Real.exp x - 1) := mul_le_mul_of_nonneg_left h hc.le
    have h3 : c * (k / c * Real.exp x - 1) = k * Real.exp x - c := by field_simp
    rw [h3] at h2
    nlinarith

theorem normaliser_ne_zero {J : ℕ} (V : (Fin J → ℝ) → ℝ) (hV : Measurable V) : ∫⁻ x, ENNReal.ofReal (Real.exp (-V x)) ≠ 0 := by
  intro h
  rw [lintegral_eq_zero_iff (by fun_prop)] at h
  have : (volume : Measure (Fin J → ℝ)) Set.univ = 0 := by
    refine measure_mono_null ?_ h
    intro x _
    simp only [Set.mem_compl_iff, Set.mem_ofPred_eq, Pi.zero_apply]
    have := Real.exp_pos (-V x)
    simp [this]
  have h2 : (volume : Measure (Fin J → ℝ)) ≠ 0 := NeZero.ne _
  exact h2 (Measure.measure_univ_eq_zero.1 this)

theorem normalisable_iff {J : ℕ} (V : (Fin J → ℝ) → ℝ) (hV : Measurable V) : Spec.Normalisable V ↔ ∫⁻ x, ENNReal.ofReal (Real.exp (-V x)) ≠ ⊤ := by
  constructor
  · rintro ⟨z, _, h⟩
    rw [h]
    exact ofReal_ne_top
  · intro h
    exact ⟨_, toReal_pos (normaliser_ne_zero V hV) h, (ofReal_toReal h).symm⟩

/-- Potentials that grow at least like those of log-Gamma laws are normalisable. -/
theorem normalisable_of_le {J : ℕ} (V : (Fin J → ℝ) → ℝ) (hV : Measurable V) (a r C : ℝ) (ha : 0 < a) (hr : 0 < r)
    (h : ∀ x, Spec.gammaPot a r x ≤ V x + C) : Spec.Normalisable V := by
  rw [normalisable_iff V hV]
  refine ne_top_of_le_ne_top ?_ (lintegral_mono (g := fun x => ENNReal.ofReal (Real.exp C) * ENNReal.ofReal (Real.exp (-Spec.gammaPot a r x))) fun x => ?_)
  · have hm := measurable_gammaPot (ι := Fin J) a r
    rw [lintegral_const_mul _ (by fun_prop)]
    have := normaliser_gammaPot (ι := Fin J) a r ha hr
    unfold Spec.normaliser at this
    rw [this]
    exact mul_ne_top ofReal_ne_top ofReal_ne_top
  · beta_reduce
    rw [← ENNReal.ofReal_mul (Real.exp_nonneg _), ← Real.exp_add]
    refine ENNReal.ofReal_le_ofReal (Real.exp_le_exp.2 ?_)
    have := h x
    linarith

theorem codeTarget_eq (p : PotParams) (I J : ℕ) (cost : ℕ → ℕ → ℝ) (x : Fin J → ℝ) :
    codeTarget p I J cost x = (-(1 / p.alpha) * Real.log (∑ i : Fin I, ∑ j : Fin J, Real.exp (p.alpha * x j - p.beta * cost i j)) +
      (p.kappa * (∑ j, Real.exp (x j)) - p.delta * ∑ j, x j)) * (2 * p.epsilon / p.sigma ^ 2) := by
  unfold codeTarget sdePotT lse2
  simp only [Finset.sum_range, vecOf, Fin.is_lt, dif_pos]

/-- The logarithm of the summed utilities is at most the largest attraction, up to a constant; a sum bounds the largest. -/
theorem lse_upper (alpha beta k : ℝ) (ha : 0 < alpha) (hk : 0 < k) {I J : ℕ} (hI : 0 < I) (hJ : 0 < J) (cost : ℕ → ℕ → ℝ) :
    ∃ C : ℝ, ∀ x : Fin J → ℝ, 1 / alpha * Real.log (∑ i : Fin I, ∑ j : Fin J, Real.exp (alpha * x j - beta * cost i j)) ≤ k * (∑ j, Real.exp (x j)) + C := by
  obtain ⟨C0, hC0⟩ := linear_le_exp 1 k zero_le_one hk
  set S : ℝ := ∑ i : Fin I, ∑ j : Fin J, Real.exp (-(beta * cost i j)) with hS
  have hSpos : 0 < S := Finset.sum_pos (fun i _ => Finset.sum_pos (fun j _ => Real.exp_pos _) ⟨⟨0, hJ⟩, Finset.mem_univ _⟩) ⟨⟨0, hI⟩, Finset.mem_univ _⟩
  refine ⟨1 / alpha * Real.log S + C0, fun x => ?_⟩
  obtain ⟨m, -, hm⟩ := Finset.exists_max_image Finset.univ x ⟨⟨0, hJ⟩, Finset.mem_univ _⟩
  have h1 : ∑ i : Fin I, ∑ j : Fin J, Real.exp (alpha * x j - beta * cost i j) ≤ Real.exp (alpha * x m) * S := by
    rw [hS, Finset.mul_sum]
    refine Finset.sum_le_sum fun i _ => ?_
    rw [Finset.mul_sum]
    refine Finset.sum_le_sum fun j _ => ?_
    rw [← Real.exp_add]
    refine Real.exp_le_exp.2 ?_
    have := mul_le_mul_of_nonneg_left (hm j (Finset.mem_univ j)) ha.le
    linarith
  have hpos : 0 < ∑ i : Fin I, ∑ j : Fin J, Real.exp (alpha * x j - beta * cost i j) :=
    Finset.sum_pos (fun i _ => Finset.sum_pos (fun j _ => Real.exp_pos _) ⟨⟨0, hJ⟩, Finset.mem_univ _⟩) ⟨⟨0, hI⟩, Finset.mem_univ _⟩
  have h2 := Real.log_le_log hpos h1
  rw [Real.log_mul (Real.exp_pos _).ne' hSpos.ne', Real.log_exp] at h2
  have h3 : 1 / alpha * Real.log (∑ i : Fin I, ∑ j : Fin J, Real.exp (alpha * x j - beta * cost i j)) ≤ 1 / alpha * (alpha * x m + Real.log S) :=
    mul_le_mul_of_nonneg_left h2 (by positivity)
  have h4 : 1 / alpha * (alpha * x m + Real.log S) = x m + 1 / alpha * Real.log S := by field_simp
  have h5 := hC0 (x m)
  have h6 : Real.exp (x m) ≤ ∑ j, Real.exp (x j) := Finset.single_le_sum (f := fun j => Real.exp (x j)) (fun j _ => (Real.exp_pos _).le) (Finset.mem_univ m)
  have h7 := mul_le_mul_of_nonneg_left h6 hk.le
  linarith

/-! ### Theorems -/

/-- **C183 (existence).**  With `delta > 0` the normalising constant of the totally constrained model exists, for all costs, numbers of origins and destinations and every `beta`. -/
theorem C183_exists (p : PotParams) (hp : Spec.Admitted p) (hd : 0 < p.delta) {I J : ℕ} (hI : 0 < I) (hJ : 0 < J) (cost : ℕ → ℕ → ℝ) :
    Spec.Normalisable (codeTarget p I J cost) := by
  obtain ⟨ha, _, hk, he, hs⟩ := hp
  set g : ℝ := 2 * p.epsilon / p.sigma ^ 2 with hg
  have hgpos : 0 < g := by positivity
  obtain ⟨C, hC⟩ := lse_upper p.alpha p.beta (p.kappa / 2) ha (by positivity) hI hJ cost
  refine normalisable_of_le _ (measurable_codeTarget p I J cost) (g * p.delta) (g * (p.kappa / 2)) (g * C) (by positivity) (by positivity) fun x => ?_
  rw [codeTarget_eq, ← hg]
  unfold Spec.gammaPot
  have := mul_le_mul_of_nonneg_left (hC x) hgpos.le
  have h2 : -(1 / p.alpha) * Real.log (∑ i : Fin I, ∑ j : Fin J, Real.exp (p.alpha * x j - p.beta * cost i j)) =
      -(1 / p.alpha * Real.log (∑ i : Fin I, ∑ j : Fin J, Real.exp (p.alpha * x j - p.beta * cost i j))) := by ring
  rw [h2]
  nlinarith

/-- The set used for the converse: one attraction may be as small as it likes. -/
theorem volume_strip {J : ℕ} (j0 : Fin J) : (volume : Measure (Fin J → ℝ)) (Set.pi Set.univ fun j => if j = j0 then Set.Iic (0 : ℝ) else Set.Icc 0 1) = ⊤ := by
  rw [volume_pi_pi, ← Finset.mul_prod_erase _ _ (Finset.mem_univ j0), if_pos rfl, Real.volume_Iic]
  rw [Finset.prod_congr rfl (g := fun _ => (1 : ℝ≥0∞))]
  · rw [Finset.prod_const_one, mul_one]
  · intro j hj
    rw [if_neg (Finset.ne_of_mem_erase hj), Real.volume_Icc]
    simp

/-- **C183 (no constant).**  With `delta ≤ 0` and at least two destinations the integral is infinite, whatever the other parameters. -/
theorem C183_infinite (p : PotParams) (ha : 0 < p.alpha) (hk : 0 < p.kappa) (he : 0 < p.epsilon) (hs : 0 < p.sigma) (hd : p.delta ≤ 0) {I J : ℕ} (hI : 0 < I) (hJ : 2 ≤ J)
    (cost : ℕ → ℕ → ℝ) : ∫⁻ x, ENNReal.ofReal (Real.exp (-codeTarget p I J cost x)) = ⊤ := by
  set g : ℝ := 2 * p.epsilon / p.sigma ^ 2 with hg
  have hgpos : 0 < g := by positivity
  set j0 : Fin J := ⟨0, by omega⟩
  set j1 : Fin J := ⟨1, by omega⟩
  have h10 : j1 ≠ j0 := by simp [j0, j1, Fin.ext_iff]
  set B : Set (Fin J → ℝ) := Set.pi Set.univ fun j => if j = j0 then Set.Iic (0 : ℝ) else Set.Icc 0 1 with hB
  set c : ℝ := g * (1 / p.alpha * -(p.beta * cost 0 1) - p.kappa * (J * Real.exp 1) + p.delta * J) with hc
  have hbound : ∀ x ∈ B, c ≤ -codeTarget p I J cost x := by
    intro x hx
    have hx' : ∀ j, x j ≤ 1 := by
      intro j
      have := hx j (Set.mem_univ j)
      by_cases h : j = j0
      · simp only [if_pos h, Set.mem_Iic] at this; linarith
      · simp only [if_neg h, Set.mem_Icc] at this; exact this.2
    have hx1 : 0 ≤ x j1 := by
      have := hx j1 (Set.mem_univ j1)
      simp only [if_neg h10, Set.mem_Icc] at this
      exact this.1
    rw [codeTarget_eq, ← hg]
    have h1 : 1 / p.alpha * -(p.beta * cost 0 1) ≤ 1 / p.alpha * Real.log (∑ i : Fin I, ∑ j : Fin J, Real.exp (p.alpha * x j - p.beta * cost i j)) := by
      refine mul_le_mul_of_nonneg_left ?_ (by positivity)
      rw [← Real.log_exp (-(p.beta * cost 0 1))]
      refine Real.log_le_log (Real.exp_pos _) ?_
      refine le_trans ?_ (Finset.single_le_sum (f := fun i : Fin I => ∑ j : Fin J, Real.exp (p.alpha * x j - p.beta * cost i j))
        (fun i _ => Finset.sum_nonneg fun j _ => (Real.exp_pos _).le) (Finset.mem_univ ⟨0, hI⟩))
      refine le_trans ?_ (Finset.single_le_sum (f := fun j : Fin J => Real.exp (p.alpha * x j - p.beta * cost (⟨0, hI⟩ : Fin I) j))
        (fun j _ => (Real.exp_pos _).le) (Finset.mem_univ j1))
      refine Real.exp_le_exp.2 ?_
      have : 0 ≤ p.alpha * x j1 := mul_nonneg ha.le hx1
      simp only [j1]
      simp only [j1] at this
      linarith
    have h2 : ∑ j, Real.exp (x j) ≤ J * Real.exp 1 := by
      refine le_trans (Finset.sum_le_sum fun j _ => Real.exp_le_exp.2 (hx' j)) ?_
      simp
    have h3 : ∑ j, x j ≤ J := by
      refine le_trans (Finset.sum_le_sum fun j _ => hx' j) ?_
      simp
    have h4 : p.delta * J ≤ p.delta * ∑ j, x j := mul_le_mul_of_nonpos_left h3 hd
    have h5 := mul_le_mul_of_nonneg_left h2 hk.le
    rw [hc]
    have h6 : -(1 / p.alpha) * Real.log (∑ i : Fin I, ∑ j : Fin J, Real.exp (p.alpha * x j - p.beta * cost i j)) =
      -(1 / p.alpha * Real.log (∑ i : Fin I, ∑ j : Fin J, Real.exp (p.alpha * x j - p.beta * cost i j))) := by ring
    rw [h6]
    have h7 : g * (1 / p.alpha * -(p.beta * cost 0 1) - p.kappa * (J * Real.exp 1) + p.delta * J) ≤
        g * (1 / p.alpha * Real.log (∑ i : Fin I, ∑ j : Fin J, Real.exp (p.alpha * x j - p.beta * cost i j)) - p.kappa * ∑ j, Real.exp (x j) + p.delta * ∑ j, x j) :=
      mul_le_mul_of_nonneg_left (by linarith) hgpos.le
    linarith
  have hBm : MeasurableSet B := by
    refine MeasurableSet.univ_pi fun j => ?_
    by_cases h : j = j0
    · rw [if_pos h]; exact measurableSet_Iic
    · rw [if_neg h]; exact measurableSet_Icc
  rw [eq_top_iff]
  calc (⊤ : ℝ≥0∞) = ENNReal.ofReal (Real.exp c) * volume B := by
        rw [hB, volume_strip j0, mul_top]
        have := Real.exp_pos c
        simp [this]
    _ = ∫⁻ _ in B, ENNReal.ofReal (Real.exp c) := by rw [setLIntegral_const]
    _ ≤ ∫⁻ x in B, ENNReal.ofReal (Real.exp (-codeTarget p I J cost x)) :=
        setLIntegral_mono' hBm fun x hx => ENNReal.ofReal_le_ofReal (Real.exp_le_exp.2 (hbound x hx))
    _ ≤ _ := setLIntegral_le_lintegral _ _

/-- **C183 (exactly when).**  Among the parameters the configuration admits, with two or more destinations, the constant exists exactly when `delta` is positive. -/
theorem C183_iff (p : PotParams) (hp : Spec.Admitted p) {I J : ℕ} (hI : 0 < I) (hJ : 2 ≤ J) (cost : ℕ → ℕ → ℝ) :
    Spec.Normalisable (codeTarget p I J cost) ↔ 0 < p.delta := by
  refine ⟨fun h => ?_, fun h => C183_exists p hp h hI (by omega) cost⟩
  by_contra hd
  obtain ⟨z, _, hz⟩ := h
  rw [C183_infinite p hp.1 hp.2.2.1 hp.2.2.2.1 hp.2.2.2.2 (not_lt.1 hd) hI hJ cost] at hz
  exact top_ne_ofReal hz

/-- "The normalising constant exists for all parameters the configuration admits" is false: not for the schema's own default `delta = 0`. -/
theorem C183_false : ¬ ∀ (p : PotParams) (I J : ℕ) (cost : ℕ → ℕ → ℝ), Spec.Admitted p → 0 < I → 0 < J → Spec.Normalisable (codeTarget p I J cost) := by
  intro h
  have hp : Spec.Admitted ⟨1, 1, 0, 1, 1, 1⟩ := ⟨one_pos, le_rfl, one_pos, one_pos, one_pos⟩
  exact lt_irrefl _ ((C183_iff _ hp one_pos le_rfl fun _ _ => 0).1 (h ⟨1, 1, 0, 1, 1, 1⟩ 1 2 (fun _ _ => 0) hp one_pos two_pos))

/-- **C183 (the annealer's starting law).**  The potential the annealer starts from has a constant for every admitted `delta`, zero included: its ratio to the target's may be infinite. -/
theorem C183_prior (p : PotParams) (hp : Spec.Admitted p) {J : ℕ} (hJ : 0 < J) : Spec.Normalisable (codePrior p J) := by
  obtain ⟨_, hd, hk, he, hs⟩ := hp
  have hJ' : (0 : ℝ) < J := by exact_mod_cast hJ
  rw [codePrior_eq]
  exact normalisable_of_le _ (measurable_gammaPot _ _) (2 / p.sigma ^ 2 * (p.delta + 1 / J)) (2 / p.sigma ^ 2 * p.kappa) 0 (by positivity) (by positivity) fun x => by rw [add_zero]

/-- The production-constrained potential as the samplers would evaluate it, for as many origins as destinations. -/
noncomputable def codeTargetP (p : PotParams) (J : ℕ) (demand : ℕ → ℝ) (cost : ℕ → ℕ → ℝ) (x : Fin J → ℝ) : ℝ := (sdePotP p J J demand cost (vecOf x)).getD 0

/-- **C183 (production-constrained).**  As coded (origins and destinations confused), for equally many of both, the constant exists for every admitted `delta` if all demands are
positive. -/
theorem C183_production (p : PotParams) (hp : Spec.Admitted p) {J : ℕ} (hJ : 0 < J) (demand : ℕ → ℝ) (hD : ∀ j < J, 0 < demand j) (cost : ℕ → ℕ → ℝ) :
    Spec.Normalisable (codeTargetP p J demand cost) := by
  obtain ⟨ha, hd, hk, he, hs⟩ := hp
  set g : ℝ := 2 * p.epsilon / p.sigma ^ 2 with hg
  have hgpos : 0 < g := by positivity
  set K : Fin J → ℝ := fun j => Real.log (∑ i : Fin J, Real.exp (-(p.beta * cost i j))) with hK
  have hl : ∀ (x : Fin J → ℝ) (j : Fin J), Real.log (∑ i : Fin J, Real.exp (p.alpha * x j - p.beta * cost i j)) = p.alpha * x j + K j := by
    intro x j
    have : ∑ i : Fin J, Real.exp (p.alpha * x j - p.beta * cost i j) = Real.exp (p.alpha * x j) * ∑ i : Fin J, Real.exp (-(p.beta * cost i j)) := by
      rw [Finset.mul_sum]
      refine Finset.sum_congr rfl fun i _ => ?_
      rw [← Real.exp_add]
      congr 1
    rw [this, Real.log_mul (Real.exp_pos _).ne' (Finset.sum_pos (fun i _ => Real.exp_pos _) ⟨⟨0, hJ⟩, Finset.mem_univ _⟩).ne', Real.log_exp]
  have hv : codeTargetP p J demand cost = fun x : Fin J → ℝ => (-(1 / p.alpha) * (∑ j : Fin J, demand j * (p.alpha * x j + K j)) +
      (p.kappa * (∑ j, Real.exp (x j)) - p.delta * ∑ j, x j)) * g := by
    funext x
    unfold codeTargetP sdePotP
    rw [if_pos rfl]
    simp only [Option.getD_some, Finset.sum_range, vecOf, Fin.is_lt, dif_pos, lse]
    simp only [hl]
    rw [hg]
  have hm : Measurable (codeTargetP p J demand cost) := by
    rw [hv]
    fun_prop
  obtain ⟨m, -, hmin⟩ := Finset.exists_min_image Finset.univ (fun j : Fin J => demand j) ⟨⟨0, hJ⟩, Finset.mem_univ _⟩
  have hmpos := hD m m.2
  have hext : ∀ j : Fin J, ∃ C : ℝ, ∀ y : ℝ, (demand j - demand m) * y ≤ p.kappa / 2 * Real.exp y + C := fun j =>
    linear_le_exp _ _ (sub_nonneg.2 (hmin j (Finset.mem_univ j))) (by positivity)
  choose C hC using hext
  refine normalisable_of_le _ hm (g * (p.delta + demand m)) (g * (p.kappa / 2)) (g * (∑ j, C j + 1 / p.alpha * ∑ j : Fin J, demand j * K j)) (by positivity) (by positivity) fun x => ?_
  rw [hv]
  unfold Spec.gammaPot
  have h1 : ∑ j : Fin J, (demand j - demand m) * x j ≤ ∑ j : Fin J, (p.kappa / 2 * Real.exp (x j) + C j) := Finset.sum_le_sum fun j _ => hC j (x j)
  rw [Finset.sum_add_distrib, ← Finset.mul_sum] at h1
  simp only [sub_mul] at h1
  rw [Finset.sum_sub_distrib, ← Finset.mul_sum] at h1
  have h2 : -(1 / p.alpha) * (∑ j : Fin J, demand j * (p.alpha * x j + K j)) = -(∑ j : Fin J, demand j * x j) - 1 / p.alpha * ∑ j : Fin J, demand j * K j := by
    simp only [mul_add, Finset.sum_add_distrib]
    have : ∑ j : Fin J, demand j * (p.alpha * x j) = p.alpha * ∑ j : Fin J, demand j * x j := by
      rw [Finset.mul_sum]
      exact Finset.sum_congr rfl fun j _ => by ring
    rw [this]
    field_simp
    ring
  beta_reduce
  rw [h2]
  have h3 := mul_le_mul_of_nonneg_left h1 hgpos.le
  nlinarith

/-- The hypotheses are met. -/
example : Spec.Admitted ⟨1, 1, 1 / 10, 1, 1, 1⟩ ∧ Spec.Normalisable (codeTarget ⟨1, 1, 1 / 10, 1, 1, 1⟩ 3 5 fun i j => (i : ℝ) - j) := by
  have hp : Spec.Admitted ⟨1, 1, 1 / 10, 1, 1, 1⟩ := ⟨one_pos, by norm_num, one_pos, one_pos, one_pos⟩
  exact ⟨hp, (C183_iff _ hp (by norm_num) (by norm_num) _).2 (by norm_num)⟩

end GeNSIT
