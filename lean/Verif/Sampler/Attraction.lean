import Verif.Sampler.Annealing
import Mathlib.Analysis.SpecialFunctions.Gaussian.GaussianIntegral
import Mathlib.Probability.Moments.Variance

/-!
# C157: the update of the attractions and their posterior law

`log_destination_attraction_gibbs_step` and `log_destination_attraction_given_table_gibbs_step`
(`gensit/learning_models/HarrisWilsonModel_MCMC.py:832-1182`), as modelled by `xStep` and `xStepT` in `Verif/Sampler/Model.lean`: the mean, over the
momentum (`torch.randn`) and the uniform (`torch.rand`), of functions of the attractions after one update.
-/

set_option linter.unusedSectionVars false

namespace GeNSIT

open MeasureTheory ProbabilityTheory ENNReal

variable {ι T : Type} [Fintype ι]

/-- The posterior weight of the attractions given theta: Boltzmann weight of the potential times the likelihood of the observed attractions,
`exp(-(V(x) + |x - y|²/(2 noise variance)))`. -/
noncomputable def Spec.attractionPosterior (V : (ι → ℝ) → ℝ) (obs : ι → ℝ) (noiseVar : ℝ) (x : ι → ℝ) : ℝ≥0∞ :=
  ENNReal.ofReal (Real.exp (-(V x + (∑ k, (x k - obs k) ^ 2) / (2 * noiseVar))))

/-- The mean of `f` of the attractions after one update from `x` with right cached values; an update that raises contributes nothing. -/
noncomputable def xStepMean (ph : Phys ℝ ι T) (eps : ℝ) (n : ℕ) (th : Fin 2 → ℝ) (f : (ι → ℝ) → ℝ≥0∞) (x : ι → ℝ) : ℝ≥0∞ :=
  ∫⁻ p, ∫⁻ u in Set.Ioo (0 : ℝ) 1,
    (xStep ph eps n p (Real.log u) th (x, ph.pot (scaleTheta ph.bmax th) x, ph.grad (scaleTheta ph.bmax th) x)).elim 0
      (fun r => f r.1.1) ∂volume ∂(momentumLaw ι)

/-- The same for the update given a table. -/
noncomputable def xStepTMean (ph : Phys ℝ ι T) (eps : ℝ) (n : ℕ) (th : Fin 2 → ℝ) (tab : T) (f : (ι → ℝ) → ℝ≥0∞) (x : ι → ℝ) : ℝ≥0∞ :=
  ∫⁻ p, ∫⁻ u in Set.Ioo (0 : ℝ) 1,
    (xStepT ph eps n p (Real.log u) th tab (x, ph.pot (scaleTheta ph.bmax th) x, ph.grad (scaleTheta ph.bmax th) x,
      ph.nlt (scaleTheta ph.bmax th) x tab)).elim 0 (fun r => f r.1.1) ∂volume ∂(momentumLaw ι)

/-- The step with at least one leapfrog step never raises, and its position is the frozen-force trajectory or the old position. -/
theorem xStep_elim (ph : Phys ℝ ι T) (eps : ℝ) (n : ℕ) (mom : ι → ℝ) (logU : ℝ) (th : Fin 2 → ℝ) (x : ι → ℝ) (f : (ι → ℝ) → ℝ≥0∞) :
    let sc := scaleTheta ph.bmax th
    let r := leapfrog eps (fun y => ph.grad sc y + obsGrad ph x) (n + 1) (x, mom)
    (xStep ph eps (n + 1) mom logU th (x, ph.pot sc x, ph.grad sc x)).elim 0 (fun r => f r.1.1) =
      if logU < Spec.energy (ph.pot sc) x mom - Spec.energy (ph.pot sc) r.1 r.2 then f r.1 else f x := by
  intro sc r
  have h := C74_ratio_ignores_data ph eps n mom logU th x
  simp only at h
  rw [h]
  split <;> rfl

/-- **C157 (part that holds).** With uninformative observations — the gradient of the likelihood vanishes, as for an infinite noise variance —
the update leaves the law of the attractions invariant, for every potential, any (even wrong) gradient, step size and number of steps. -/
theorem C157_uninformative_partial (ph : Phys ℝ ι T) (eps : ℝ) (n : ℕ) (th : Fin 2 → ℝ)
    (hV : Measurable (ph.pot (scaleTheta ph.bmax th))) (hg : Measurable (ph.grad (scaleTheta ph.bmax th)))
    (h0 : ∀ x, obsGrad ph x = 0) (f : (ι → ℝ) → ℝ≥0∞) (hf : Measurable f) :
    ∫⁻ x, ENNReal.ofReal (Real.exp (-ph.pot (scaleTheta ph.bmax th) x)) * xStepMean ph eps (n + 1) th f x =
      ∫⁻ x, ENNReal.ofReal (Real.exp (-ph.pot (scaleTheta ph.bmax th) x)) * f x := by
  rw [← hmcMean_invariant (ph.pot (scaleTheta ph.bmax th)) hV eps (ph.grad (scaleTheta ph.bmax th)) hg (n + 1) f hf]
  refine lintegral_congr fun x => ?_
  congr 1
  unfold xStepMean hmcMean
  refine lintegral_congr fun p => lintegral_congr fun u => ?_
  have h := xStep_elim ph eps n p (Real.log u) th x f
  simp only [h0, add_zero] at h
  rw [h]
  unfold hmcMove hmcProposal
  rw [flipMom_energy]
  rw [apply_ite f]
  rfl

/-- The loop given a table is the leapfrog trajectory with the data and table gradients frozen at the previous sample. -/
theorem xLoopT_frozen {K : Type} [_root_.Field K] [LinearOrder K] [IsStrictOrderedRing K] (ph : Phys K ι T) (sc : Fin 2 → K) (eps : K) (n : ℕ) (tab : T) (prev mom : ι → K) :
    (((xLoopStepT ph sc eps tab prev)^[n] { x := prev, p := mom, gradW := ph.grad sc prev + obsGrad ph prev + nltGrad ph sc prev tab, new := none }).x,
      ((xLoopStepT ph sc eps tab prev)^[n] { x := prev, p := mom, gradW := ph.grad sc prev + obsGrad ph prev + nltGrad ph sc prev tab, new := none }).p) =
      leapfrog eps (fun y => ph.grad sc y + obsGrad ph prev + nltGrad ph sc prev tab) n (prev, mom) := by
  have key : ∀ m (s : XLoop K ι) (t : (ι → K) × (ι → K) × (ι → K)), s.x = t.1 → s.p = t.2.1 → s.gradW = t.2.2 →
      ((xLoopStepT ph sc eps tab prev)^[m] s).x = ((leapStep eps (fun y => ph.grad sc y + obsGrad ph prev + nltGrad ph sc prev tab))^[m] t).1 ∧
      ((xLoopStepT ph sc eps tab prev)^[m] s).p = ((leapStep eps (fun y => ph.grad sc y + obsGrad ph prev + nltGrad ph sc prev tab))^[m] t).2.1 := by
    intro m
    induction m with
    | zero => intro s t h1 h2 _; exact ⟨h1, h2⟩
    | succ m ih =>
      intro s t h1 h2 h3
      rw [Function.iterate_succ_apply, Function.iterate_succ_apply]
      apply ih <;> simp only [xLoopStepT, leapStep, h1, h2, h3]
  have := key n { x := prev, p := mom, gradW := ph.grad sc prev + obsGrad ph prev + nltGrad ph sc prev tab, new := none }
    (prev, mom, ph.grad sc prev + obsGrad ph prev + nltGrad ph sc prev tab) rfl rfl rfl
  exact Prod.ext this.1 this.2

/-- **C157 (given a table, exact behaviour).** The proposal follows the forces of observations and table frozen at the previous sample; the acceptance compares potential and kinetic
energies only, plus the error `c - nlt` of the cached table likelihood `c`; the likelihood cached on acceptance is that of the previous sample. -/
theorem C157_given_table_ratio {K : Type} [_root_.Field K] [LinearOrder K] [IsStrictOrderedRing K] (ph : Phys K ι T) (eps : K) (n : ℕ) (mom : ι → K) (logU : K) (th : Fin 2 → K) (tab : T)
    (x : ι → K) (c : K) :
    let sc := scaleTheta ph.bmax th
    let r := leapfrog eps (fun y => ph.grad sc y + obsGrad ph x + nltGrad ph sc x tab) (n + 1) (x, mom)
    xStepT ph eps (n + 1) mom logU th tab (x, ph.pot sc x, ph.grad sc x, c) =
      if logU < Spec.energy (ph.pot sc) x mom - Spec.energy (ph.pot sc) r.1 r.2 + (c - ph.nlt sc x tab) then
        some ((r.1, ph.pot sc r.1, ph.grad sc r.1, ph.nlt sc x tab), 1)
      else some ((x, ph.pot sc x, ph.grad sc x, c), 0) := by
  intro sc r
  have hr := xLoopT_frozen ph sc eps (n + 1) tab x mom
  have hx := congrArg Prod.fst hr
  have hp := congrArg Prod.snd hr
  simp only at hx hp
  have hn := xLoopT_new ph sc eps n tab x { x := x, p := mom, gradW := ph.grad sc x + obsGrad ph x + nltGrad ph sc x tab, new := none }
  unfold xStepT
  simp only [show scaleTheta ph.bmax th = sc from rfl, hn, hx, hp]
  have he : (1 / 2 * dot mom mom + (ph.pot sc x + obsNll ph x + c) - (1 / 2 * dot r.2 r.2 + (ph.pot sc r.1 + obsNll ph x + ph.nlt sc x tab))) =
      Spec.energy (ph.pot sc) x mom - Spec.energy (ph.pot sc) r.1 r.2 + (c - ph.nlt sc x tab) := by
    simp only [Spec.energy, Spec.kinetic, dot]
    ring
  change (if _ < (1 / 2 * dot mom mom + (ph.pot sc x + obsNll ph x + c) - (1 / 2 * dot r.2 r.2 + (ph.pot sc r.1 + obsNll ph x + ph.nlt sc x tab))) then _ else _) = _
  rw [he]

/-- **C157 (part that holds given a table).** If neither the observations nor the table inform about the attractions, the update given a table leaves their law invariant. -/
theorem C157_given_table_uninformative_partial (ph : Phys ℝ ι T) (eps : ℝ) (n : ℕ) (th : Fin 2 → ℝ) (tab : T)
    (hV : Measurable (ph.pot (scaleTheta ph.bmax th))) (hg : Measurable (ph.grad (scaleTheta ph.bmax th)))
    (h0 : ∀ x, obsGrad ph x = 0) (h1 : ∀ x, ph.nltJac (scaleTheta ph.bmax th) x tab = 0) (f : (ι → ℝ) → ℝ≥0∞) (hf : Measurable f) :
    ∫⁻ x, ENNReal.ofReal (Real.exp (-ph.pot (scaleTheta ph.bmax th) x)) * xStepTMean ph eps (n + 1) th tab f x =
      ∫⁻ x, ENNReal.ofReal (Real.exp (-ph.pot (scaleTheta ph.bmax th) x)) * f x := by
  rw [← hmcMean_invariant (ph.pot (scaleTheta ph.bmax th)) hV eps (ph.grad (scaleTheta ph.bmax th)) hg (n + 1) f hf]
  refine lintegral_congr fun x => ?_
  congr 1
  unfold xStepTMean hmcMean
  refine lintegral_congr fun p => lintegral_congr fun u => ?_
  have h := C157_given_table_ratio ph eps n p (Real.log u) th tab x (ph.nlt (scaleTheta ph.bmax th) x tab)
  simp only [h0, nltGrad, h1, neg_zero, add_zero, sub_self] at h
  rw [h]
  unfold hmcMove hmcProposal
  rw [flipMom_energy]
  rw [apply_ite f]
  split <;> rfl

/-- One destination, flat potential, one observation at zero with unit noise variance. -/
noncomputable def flatPhys : Phys ℝ Unit Unit where
  bmax := 1
  pot := fun _ _ => 0
  grad := fun _ _ => 0
  nlt := fun _ _ _ => 0
  nltJac := fun _ _ _ => 0
  obs := fun _ => 0
  noiseVar := 1

/-- The hypothesis: in the model an infinite noise variance is one whose inverse is zero. -/
example : ∀ x, obsGrad ({ flatPhys with noiseVar := 0 } : Phys ℝ Unit Unit) x = 0 := by
  intro x
  simp [obsGrad]

/-- **C157 (what the update would have to do).** The loop of the annealer (`annealed_importance_sampling_log_z`, lines 377-417), which re-evaluates
potential and gradient at every leapfrog step, does leave the posterior of the attractions invariant when run at temperature one on the potential plus
the likelihood of the observations. -/
theorem C157_annealer_step_partial (V0 V : (ι → ℝ) → ℝ) (g0 g : (ι → ℝ) → (ι → ℝ)) (obs : ι → ℝ) (noiseVar eps : ℝ) (n it : ℕ) (temp : ℕ → ℝ)
    (ht : temp it = 1) (h0 : Measurable V0) (hV : Measurable V) (hg0 : Measurable g0) (hg : Measurable g) (l : ℝ)
    (f : (ι → ℝ) → ℝ≥0∞) (hf : Measurable f) :
    let V1 := fun x => V x + (∑ k, (x k - obs k) ^ 2) / (2 * noiseVar)
    let g1 := fun x => g x + fun k => (x k - obs k) / noiseVar
    ∫⁻ x, Spec.attractionPosterior V obs noiseVar x *
        (∫⁻ p, ∫⁻ u in Set.Ioo (0 : ℝ) 1,
          f (aisStep V0 V1 g0 g1 temp eps n it (aisInit V0 V1 g0 g1 l x) ⟨p, Real.log u⟩).x ∂volume ∂(momentumLaw ι)) =
      ∫⁻ x, Spec.attractionPosterior V obs noiseVar x * f x := by
  intro V1 g1
  have hV1 : Measurable V1 := by fun_prop
  have hg1 : Measurable g1 := by fun_prop
  have h := C152_step_invariant V0 V1 g0 g1 temp eps n it h0 hV1 hg0 hg1 l f hf
  have e : ∀ x, Spec.tempered V0 V1 (temp it) x = V1 x := by
    intro x
    unfold Spec.tempered
    rw [ht]
    ring
  simp only [e] at h
  exact h

example : (linspace01 3 2 : ℝ) = 1 := by norm_num [linspace01]

/-! ### The update does not leave the posterior invariant -/

example : Measurable (flatPhys.pot (scaleTheta flatPhys.bmax ![1, 1])) := measurable_const

theorem flat_leap (x p : Unit → ℝ) :
    leapfrog (Real.sqrt 2) (fun _ => (0 : Unit → ℝ) + obsGrad flatPhys x) (0 + 1) (x, p) =
      (fun _ => Real.sqrt 2 * p (), fun _ => p () - Real.sqrt 2 * x ()) := by
  have h2 : Real.sqrt 2 * Real.sqrt 2 = 2 := Real.mul_self_sqrt (by norm_num)
  unfold leapfrog
  simp only [zero_add, Function.iterate_one, leapStep, obsGrad, flatPhys]
  refine Prod.ext (funext fun i => ?_) (funext fun i => ?_)
  · simp only [Pi.add_apply, Pi.smul_apply, Pi.sub_apply, smul_eq_mul]
    have : x i + Real.sqrt 2 * (p i - 1 / 2 * Real.sqrt 2 * (1 / 1 * (x i - 0))) =
      x i + Real.sqrt 2 * p i - 1 / 2 * (Real.sqrt 2 * Real.sqrt 2) * x i := by ring
    rw [this, h2]
    ring
  · simp only [Pi.smul_apply, Pi.sub_apply, smul_eq_mul]
    ring

theorem flat_elim (x p : Unit → ℝ) (logU : ℝ) (th : Fin 2 → ℝ) (f : (Unit → ℝ) → ℝ≥0∞) :
    (xStep flatPhys (Real.sqrt 2) 1 p logU th (x, flatPhys.pot (scaleTheta flatPhys.bmax th) x,
      flatPhys.grad (scaleTheta flatPhys.bmax th) x)).elim 0 (fun r => f r.1.1) =
      if logU < Real.sqrt 2 * p () * x () - x () ^ 2 then f (fun _ => Real.sqrt 2 * p ()) else f x := by
  have h2 : Real.sqrt 2 ^ 2 = 2 := Real.sq_sqrt (by norm_num)
  have h := xStep_elim flatPhys (Real.sqrt 2) 0 p logU th x f
  simp only [show ∀ y, flatPhys.grad (scaleTheta flatPhys.bmax th) y = 0 from fun _ => rfl] at h ⊢
  rw [flat_leap] at h
  rw [h]
  refine if_congr ?_ rfl rfl
  have : Spec.energy (flatPhys.pot (scaleTheta flatPhys.bmax th)) x p -
      Spec.energy (flatPhys.pot (scaleTheta flatPhys.bmax th)) (fun _ => Real.sqrt 2 * p ()) (fun _ => p () - Real.sqrt 2 * x ()) =
      Real.sqrt 2 * p () * x () - Real.sqrt 2 ^ 2 / 2 * x () ^ 2 := by
    unfold Spec.energy Spec.kinetic flatPhys
    simp only [Finset.univ_unique, Finset.sum_singleton]
    ring_nf
  rw [this, h2]
  norm_num

theorem flatT_elim (x p : Unit → ℝ) (logU : ℝ) (th : Fin 2 → ℝ) (f : (Unit → ℝ) → ℝ≥0∞) :
    (xStepT flatPhys (Real.sqrt 2) 1 p logU th () (x, flatPhys.pot (scaleTheta flatPhys.bmax th) x,
      flatPhys.grad (scaleTheta flatPhys.bmax th) x, flatPhys.nlt (scaleTheta flatPhys.bmax th) x ())).elim 0 (fun r => f r.1.1) =
      if logU < Real.sqrt 2 * p () * x () - x () ^ 2 then f (fun _ => Real.sqrt 2 * p ()) else f x := by
  rw [← flat_elim x p logU th f]
  unfold xStepT xStep xLoop
  simp only [Function.iterate_one, xLoopStepT, xLoopStep, nltGrad, flatPhys, neg_zero, add_zero]
  split <;> rfl

/-- The test function: attractions within a tenth of the observation. -/
noncomputable def nearObs (x : Unit → ℝ) : ℝ≥0∞ := if |x ()| < 1 / 10 then 1 else 0

theorem measurable_nearObs : Measurable nearObs := by
  unfold nearObs
  refine Measurable.ite ?_ measurable_const measurable_const
  exact measurableSet_lt (by fun_prop) measurable_const

theorem lintegral_unit (F : ℝ → ℝ≥0∞) : ∫⁻ x : Unit → ℝ, F (x ()) = ∫⁻ y, F y :=
  (volume_preserving_funUnique Unit ℝ).lintegral_comp_emb (MeasurableEquiv.funUnique Unit ℝ).measurableEmbedding F

theorem lintegral_momUnit (F : ℝ → ℝ≥0∞) : ∫⁻ p, F (p ()) ∂(momentumLaw Unit) = ∫⁻ y, F y ∂(gaussianReal 0 1) :=
  (measurePreserving_funUnique (gaussianReal 0 1) Unit).lintegral_comp_emb (MeasurableEquiv.funUnique Unit ℝ).measurableEmbedding F

/-- Second moment of the momentum. -/
theorem lintegral_gauss_sq (a b : ℝ) (ha : 0 ≤ a) (hb : 0 ≤ b) :
    ∫⁻ y, ENNReal.ofReal (a * y ^ 2 + b) ∂(gaussianReal 0 1) = ENNReal.ofReal (a + b) := by
  have hm : MemLp (fun y : ℝ => y) 2 (gaussianReal 0 1) := memLp_id_gaussianReal 2
  have hi : Integrable (fun y : ℝ => y ^ 2) (gaussianReal 0 1) := hm.integrable_sq
  have hab : Integrable (fun y : ℝ => a * y ^ 2 + b) (gaussianReal 0 1) := (hi.const_mul a).add (integrable_const b)
  rw [← ofReal_integral_eq_lintegral_ofReal hab
    (Filter.Eventually.of_forall fun y => by positivity)]
  congr 1
  have hv : ∫ y : ℝ, y ^ 2 ∂(gaussianReal 0 1) = 1 := by
    have h1 := variance_fun_id_gaussianReal (μ := 0) (v := 1)
    rw [variance_eq_integral (by fun_prop), integral_id_gaussianReal] at h1
    simpa using h1
  rw [integral_add (hi.const_mul a) (integrable_const b), integral_const_mul, hv]
  simp

theorem one_sub_accept_le (d e : ℝ) (h : -d ≤ e) : 1 - min 1 (ENNReal.ofReal (Real.exp d)) ≤ ENNReal.ofReal e := by
  rw [tsub_le_iff_right]
  rcases le_total 1 (ENNReal.ofReal (Real.exp d)) with h1 | h1
  · rw [min_eq_left h1]; exact le_add_self
  · rw [min_eq_right h1]
    have h2 : (1 : ℝ) ≤ e + Real.exp d := by have := Real.add_one_le_exp d; linarith
    have h3 : (1 : ℝ≥0∞) ≤ ENNReal.ofReal (e + Real.exp d) := by
      rw [← ENNReal.ofReal_one]; exact ENNReal.ofReal_le_ofReal h2
    exact h3.trans ENNReal.ofReal_add_le

/-- The bound on the mean of the test function after one update. -/
theorem flat_mean_le (x : Unit → ℝ) :
    (∫⁻ p, ∫⁻ u in Set.Ioo (0 : ℝ) 1,
      (if Real.log u < Real.sqrt 2 * p () * x () - x () ^ 2 then nearObs (fun _ => Real.sqrt 2 * p ()) else nearObs x) ∂volume ∂(momentumLaw Unit)) ≤
      (∫⁻ y, nearObs (fun _ => Real.sqrt 2 * y) ∂(gaussianReal 0 1)) + ENNReal.ofReal (Real.sqrt 2 / 10 + 1 / 100) * nearObs x := by
  have hs : 0 ≤ Real.sqrt 2 := Real.sqrt_nonneg 2
  have hb : ∀ p : Unit → ℝ, (∫⁻ u in Set.Ioo (0 : ℝ) 1,
      (if Real.log u < Real.sqrt 2 * p () * x () - x () ^ 2 then nearObs (fun _ => Real.sqrt 2 * p ()) else nearObs x)) ≤
      nearObs (fun _ => Real.sqrt 2 * p ()) +
        ENNReal.ofReal (Real.sqrt 2 / 20 * p () ^ 2 + (Real.sqrt 2 / 20 + 1 / 100)) * nearObs x := by
    intro p
    rw [lintegral_hmc_accept]
    refine add_le_add ?_ ?_
    · calc _ ≤ 1 * nearObs (fun _ => Real.sqrt 2 * p ()) := mul_le_mul_left (min_le_left _ _) _
        _ = _ := one_mul _
    · by_cases hx : |x ()| < 1 / 10
      · refine mul_le_mul_left (one_sub_accept_le _ _ ?_) _
        have h1 : -(p () * x ()) ≤ |p ()| * (1 / 10) := by
          calc -(p () * x ()) ≤ |p () * x ()| := neg_le_abs _
            _ = |p ()| * |x ()| := abs_mul _ _
            _ ≤ _ := mul_le_mul_of_nonneg_left hx.le (abs_nonneg _)
        have h2 : |p ()| ≤ (p () ^ 2 + 1) / 2 := by
          have := sq_nonneg (|p ()| - 1)
          have h3 := sq_abs (p ())
          nlinarith
        have h3 : x () ^ 2 ≤ 1 / 100 := by
          have := abs_lt.1 hx
          nlinarith
        have h4 : Real.sqrt 2 * -(p () * x ()) ≤ Real.sqrt 2 * ((p () ^ 2 + 1) / 20) :=
          mul_le_mul_of_nonneg_left (by linarith) hs
        nlinarith
      · have h0 : nearObs x = 0 := if_neg hx
        rw [h0, mul_zero, mul_zero]
  refine (lintegral_mono hb).trans ?_
  have hm1 : Measurable fun p : Unit → ℝ => nearObs (fun _ => Real.sqrt 2 * p ()) :=
    measurable_nearObs.comp (by fun_prop)
  rw [lintegral_add_left hm1, lintegral_mul_const _ (by fun_prop),
    lintegral_momUnit (fun y => nearObs (fun _ => Real.sqrt 2 * y)),
    lintegral_momUnit (fun y => ENNReal.ofReal (Real.sqrt 2 / 20 * y ^ 2 + (Real.sqrt 2 / 20 + 1 / 100))),
    lintegral_gauss_sq _ _ (by positivity) (by positivity)]
  refine le_of_eq ?_
  congr 3
  ring

/-- Probability that the proposal falls near the observation. -/
theorem flat_in_le : (∫⁻ y, nearObs (fun _ => Real.sqrt 2 * y) ∂(gaussianReal 0 1)) ≤
    ENNReal.ofReal ((Real.sqrt (2 * Real.pi))⁻¹ * (Real.sqrt 2 / 10)) := by
  have hs : 0 < Real.sqrt 2 := by positivity
  have h2 : Real.sqrt 2 * Real.sqrt 2 = 2 := Real.mul_self_sqrt (by norm_num)
  set S : Set ℝ := Set.Ioo (-(Real.sqrt 2 / 20)) (Real.sqrt 2 / 20) with hS
  have e1 : (fun y : ℝ => nearObs (fun _ => Real.sqrt 2 * y)) = S.indicator fun _ => 1 := by
    funext y
    unfold nearObs
    by_cases hy : y ∈ S
    · rw [Set.indicator_of_mem hy]
      have : |Real.sqrt 2 * y| < 1 / 10 := by
        rw [abs_lt]
        constructor <;> nlinarith [hy.1, hy.2]
      exact if_pos this
    · rw [Set.indicator_of_notMem hy]
      have : ¬ |Real.sqrt 2 * y| < 1 / 10 := by
        intro h
        refine hy ?_
        rw [abs_lt] at h
        constructor <;> nlinarith [h.1, h.2]
      exact if_neg this
  rw [e1, lintegral_indicator measurableSet_Ioo, setLIntegral_one, gaussianReal_apply _ one_ne_zero]
  have hpdf : ∀ y, gaussianPDF 0 1 y ≤ ENNReal.ofReal (Real.sqrt (2 * Real.pi))⁻¹ := by
    intro y
    unfold gaussianPDF gaussianPDFReal
    refine ENNReal.ofReal_le_ofReal ?_
    have : Real.exp (-(y - 0) ^ 2 / (2 * ((1 : NNReal) : ℝ))) ≤ 1 := by
      rw [Real.exp_le_one_iff]
      simp only [NNReal.coe_one]
      nlinarith [sq_nonneg y]
    calc _ ≤ (Real.sqrt (2 * Real.pi * ((1 : NNReal) : ℝ)))⁻¹ * 1 := mul_le_mul_of_nonneg_left this (by positivity)
      _ = _ := by simp
  refine (lintegral_mono hpdf).trans ?_
  rw [setLIntegral_const, Real.volume_Ioo, ENNReal.ofReal_mul (by positivity)]
  refine le_of_eq ?_
  congr 2
  ring

theorem flat_post (x : Unit → ℝ) :
    Spec.attractionPosterior (flatPhys.pot (scaleTheta flatPhys.bmax ![1, 1])) flatPhys.obs flatPhys.noiseVar x =
      ENNReal.ofReal (Real.exp (-(1 / 2) * x () ^ 2)) := by
  unfold Spec.attractionPosterior flatPhys
  simp only [Finset.univ_unique, Finset.sum_singleton]
  congr 2
  have : x default = x () := rfl
  rw [this]
  ring

theorem flat_total : ∫⁻ x : Unit → ℝ, ENNReal.ofReal (Real.exp (-(1 / 2) * x () ^ 2)) = ENNReal.ofReal (Real.sqrt (2 * Real.pi)) := by
  rw [lintegral_unit fun y => ENNReal.ofReal (Real.exp (-(1 / 2) * y ^ 2)),
    ← ofReal_integral_eq_lintegral_ofReal (integrable_exp_neg_mul_sq (by norm_num)) (Filter.Eventually.of_forall fun y => (Real.exp_pos _).le),
    integral_gaussian]
  congr 2
  ring

theorem flat_near : ENNReal.ofReal (1 / 5 * (199 / 200)) ≤
      ∫⁻ x : Unit → ℝ, ENNReal.ofReal (Real.exp (-(1 / 2) * x () ^ 2)) * nearObs x ∧
    ∫⁻ x : Unit → ℝ, ENNReal.ofReal (Real.exp (-(1 / 2) * x () ^ 2)) * nearObs x ≠ ⊤ := by
  constructor
  · have e : (fun x : Unit → ℝ => ENNReal.ofReal (Real.exp (-(1 / 2) * x () ^ 2)) * nearObs x) =
        fun x => (fun y : ℝ => ENNReal.ofReal (Real.exp (-(1 / 2) * y ^ 2)) * if |y| < 1 / 10 then 1 else 0) (x ()) := rfl
    rw [e, lintegral_unit fun y : ℝ => ENNReal.ofReal (Real.exp (-(1 / 2) * y ^ 2)) * if |y| < 1 / 10 then 1 else 0]
    calc ENNReal.ofReal (1 / 5 * (199 / 200)) = ∫⁻ y in Set.Ioo (-(1 / 10) : ℝ) (1 / 10), ENNReal.ofReal (199 / 200) := by
          rw [setLIntegral_const, Real.volume_Ioo, ← ENNReal.ofReal_mul (by norm_num)]
          congr 1
          norm_num
      _ = ∫⁻ y, (Set.Ioo (-(1 / 10) : ℝ) (1 / 10)).indicator (fun _ => ENNReal.ofReal (199 / 200)) y :=
          (lintegral_indicator measurableSet_Ioo _).symm
      _ ≤ _ := by
          refine lintegral_mono fun y => ?_
          by_cases hy : y ∈ Set.Ioo (-(1 / 10) : ℝ) (1 / 10)
          · rw [Set.indicator_of_mem hy]
            have h1 : |y| < 1 / 10 := abs_lt.2 hy
            simp only [h1, if_true, mul_one]
            refine ENNReal.ofReal_le_ofReal ?_
            have := Real.add_one_le_exp (-(1 / 2) * y ^ 2)
            have h3 : y ^ 2 ≤ 1 / 100 := by nlinarith [hy.1, hy.2]
            linarith
          · rw [Set.indicator_of_notMem hy]
            exact zero_le
  · refine ne_top_of_le_ne_top (b := ENNReal.ofReal (Real.sqrt (2 * Real.pi))) ENNReal.ofReal_ne_top ?_
    rw [← flat_total]
    refine lintegral_mono fun x => ?_
    calc _ ≤ ENNReal.ofReal (Real.exp (-(1 / 2) * x () ^ 2)) * 1 := by
          refine mul_le_mul_right ?_ _
          unfold nearObs
          split <;> simp
      _ = _ := mul_one _

/-- The mass near the observation drops. -/
theorem flat_drop (M : (Unit → ℝ) → ℝ≥0∞) (hM : ∀ x, M x = ∫⁻ p, ∫⁻ u in Set.Ioo (0 : ℝ) 1,
      (if Real.log u < Real.sqrt 2 * p () * x () - x () ^ 2 then nearObs (fun _ => Real.sqrt 2 * p ()) else nearObs x) ∂volume ∂(momentumLaw Unit)) :
    ∫⁻ x : Unit → ℝ, ENNReal.ofReal (Real.exp (-(1 / 2) * x () ^ 2)) * M x <
      ∫⁻ x : Unit → ℝ, ENNReal.ofReal (Real.exp (-(1 / 2) * x () ^ 2)) * nearObs x := by
  obtain ⟨hR, hRt⟩ := flat_near
  set R := ∫⁻ x : Unit → ℝ, ENNReal.ofReal (Real.exp (-(1 / 2) * x () ^ 2)) * nearObs x with hRdef
  have hs2 : Real.sqrt 2 < 1415 / 1000 := by
    rw [Real.sqrt_lt' (by norm_num)]; norm_num
  have hs0 : 0 ≤ Real.sqrt 2 := Real.sqrt_nonneg 2
  set q : ℝ := Real.sqrt 2 / 10 + 1 / 100 with hq
  have hle : ∫⁻ x : Unit → ℝ, ENNReal.ofReal (Real.exp (-(1 / 2) * x () ^ 2)) * M x ≤
      ENNReal.ofReal (Real.sqrt 2 / 10) + ENNReal.ofReal q * R := by
    calc _ ≤ ∫⁻ x : Unit → ℝ, (ENNReal.ofReal (Real.exp (-(1 / 2) * x () ^ 2)) *
            (∫⁻ y, nearObs (fun _ => Real.sqrt 2 * y) ∂(gaussianReal 0 1)) +
            ENNReal.ofReal q * (ENNReal.ofReal (Real.exp (-(1 / 2) * x () ^ 2)) * nearObs x)) := by
          refine lintegral_mono fun x => ?_
          calc _ ≤ ENNReal.ofReal (Real.exp (-(1 / 2) * x () ^ 2)) *
                ((∫⁻ y, nearObs (fun _ => Real.sqrt 2 * y) ∂(gaussianReal 0 1)) + ENNReal.ofReal q * nearObs x) :=
                mul_le_mul_right ((hM x).le.trans (flat_mean_le x)) _
            _ = _ := by ring
      _ = ENNReal.ofReal (Real.sqrt (2 * Real.pi)) * (∫⁻ y, nearObs (fun _ => Real.sqrt 2 * y) ∂(gaussianReal 0 1)) + ENNReal.ofReal q * R := by
          have hm : Measurable fun x : Unit → ℝ => ENNReal.ofReal (Real.exp (-(1 / 2) * x () ^ 2)) := by fun_prop
          rw [lintegral_add_left (hm.mul_const _), lintegral_mul_const _ hm, flat_total,
            lintegral_const_mul (ENNReal.ofReal q) (f := fun x : Unit → ℝ => ENNReal.ofReal (Real.exp (-(1 / 2) * x () ^ 2)) * nearObs x)
              (hm.mul measurable_nearObs)]
      _ ≤ _ := by
          refine add_le_add ?_ le_rfl
          refine (mul_le_mul_right flat_in_le _).trans ?_
          rw [← ENNReal.ofReal_mul (by positivity), ← mul_assoc, mul_inv_cancel₀ (by positivity), one_mul]
  refine hle.trans_lt ?_
  have hsplit : R = ENNReal.ofReal (1 - q) * R + ENNReal.ofReal q * R := by
    rw [← add_mul, ← ENNReal.ofReal_add (by rw [hq]; linarith) (by positivity)]
    simp
  have h1 : ENNReal.ofReal (Real.sqrt 2 / 10) < ENNReal.ofReal (1 - q) * R := by
    refine lt_of_lt_of_le ?_ (mul_le_mul_right hR _)
    rw [← ENNReal.ofReal_mul (by rw [hq]; linarith), ENNReal.ofReal_lt_ofReal_iff']
    rw [hq]
    constructor <;> nlinarith
  conv_rhs => rw [hsplit]
  exact ENNReal.add_lt_add_right (ENNReal.mul_ne_top ENNReal.ofReal_ne_top hRt) h1

/-- **C157 is false**: with one destination, a flat potential and one observation of unit noise variance, one update with a single leapfrog step of
size `√2` from the posterior leaves less mass near the observation than the posterior has there. -/
theorem C157_false : ¬ ∀ (ph : Phys ℝ Unit Unit) (eps : ℝ) (n : ℕ) (th : Fin 2 → ℝ) (f : (Unit → ℝ) → ℝ≥0∞),
    Measurable (ph.pot (scaleTheta ph.bmax th)) → Measurable (ph.grad (scaleTheta ph.bmax th)) → 0 < ph.noiseVar → Measurable f →
    ∫⁻ x, Spec.attractionPosterior (ph.pot (scaleTheta ph.bmax th)) ph.obs ph.noiseVar x * xStepMean ph eps (n + 1) th f x =
      ∫⁻ x, Spec.attractionPosterior (ph.pot (scaleTheta ph.bmax th)) ph.obs ph.noiseVar x * f x := by
  intro h
  have h1 := h flatPhys (Real.sqrt 2) 0 ![1, 1] nearObs measurable_const measurable_const (by unfold flatPhys; norm_num) measurable_nearObs
  simp only [flat_post] at h1
  exact absurd h1 (flat_drop _ fun x => by
    unfold xStepMean
    exact lintegral_congr fun p => lintegral_congr fun u => flat_elim x p _ _ _).ne

/-- **C157 is false for the joint sampler too**, whatever the table. -/
theorem C157_given_table_false : ¬ ∀ (ph : Phys ℝ Unit Unit) (eps : ℝ) (n : ℕ) (th : Fin 2 → ℝ) (f : (Unit → ℝ) → ℝ≥0∞),
    Measurable (ph.pot (scaleTheta ph.bmax th)) → Measurable (ph.grad (scaleTheta ph.bmax th)) → 0 < ph.noiseVar → Measurable f →
    ∫⁻ x, Spec.attractionPosterior (fun y => ph.pot (scaleTheta ph.bmax th) y + ph.nlt (scaleTheta ph.bmax th) y ()) ph.obs ph.noiseVar x *
        xStepTMean ph eps (n + 1) th () f x =
      ∫⁻ x, Spec.attractionPosterior (fun y => ph.pot (scaleTheta ph.bmax th) y + ph.nlt (scaleTheta ph.bmax th) y ()) ph.obs ph.noiseVar x * f x := by
  intro h
  have h1 := h flatPhys (Real.sqrt 2) 0 ![1, 1] nearObs measurable_const measurable_const (by unfold flatPhys; norm_num) measurable_nearObs
  have hp : ∀ x, Spec.attractionPosterior (fun y => flatPhys.pot (scaleTheta flatPhys.bmax ![1, 1]) y +
      flatPhys.nlt (scaleTheta flatPhys.bmax ![1, 1]) y ()) flatPhys.obs flatPhys.noiseVar x =
      ENNReal.ofReal (Real.exp (-(1 / 2) * x () ^ 2)) := by
    intro x
    rw [← flat_post x]
    congr 1
    funext y
    simp [flatPhys]
  simp only [hp] at h1
  exact absurd h1 (flat_drop _ fun x => by
    unfold xStepTMean
    exact lintegral_congr fun p => lintegral_congr fun u => flatT_elim x p _ _ _).ne

end GeNSIT
